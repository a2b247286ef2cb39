import Verif.Peaks.Model
import Mathlib.Tactic.Linarith
import Mathlib.Tactic.Positivity
import Mathlib.Tactic.FieldSimp
import Mathlib.Tactic.Ring
import Mathlib.Tactic.NormNum
import Mathlib.Analysis.Real.Pi.Bounds

/-!
# Properties C31, C32: parameter formats and the width limit
-/

namespace Verif.Peaks

open Verif.Py

theorem log2_pos : 0 < Real.log 2 := Real.log_pos (by norm_num)

theorem sigma2fwhm_pos : 0 < sigma2fwhm := by
  unfold sigma2fwhm
  have := log2_pos
  positivity

/-- FWHM denoted by an internal width: `maxwidth · sqrt((sin p + 1)/2)`. -/
noncomputable def fwhmOf (mw w : ℝ) : ℝ := Real.sqrt (0.5 * (Real.sin w + 1) * mw ^ 2)

theorem fwhmOf_sq {mw : ℝ} (w : ℝ) : fwhmOf mw w ^ 2 = 0.5 * (Real.sin w + 1) * mw ^ 2 := by
  unfold fwhmOf
  apply Real.sq_sqrt
  have := Real.neg_one_le_sin w
  have h : 0 ≤ Real.sin w + 1 := by linarith
  positivity

/-- **C32.** Whatever the internal width, the FWHM is between 0 and `maxwidth`; it reaches
`maxwidth` exactly where the sine is 1. -/
theorem c32_fwhm_bounds {mw : ℝ} (hmw : 0 < mw) (w : ℝ) :
    0 ≤ fwhmOf mw w ∧ fwhmOf mw w ≤ mw ∧ (fwhmOf mw w = mw ↔ Real.sin w = 1) := by
  have h1 := Real.sin_le_one w
  have h0 := Real.neg_one_le_sin w
  have hsq := fwhmOf_sq (mw := mw) w
  have hn : 0 ≤ fwhmOf mw w := Real.sqrt_nonneg _
  refine ⟨hn, ?_, ?_⟩
  · apply abs_le_of_sq_le_sq' _ hmw.le |>.2
    rw [hsq]
    nlinarith [sq_nonneg mw]
  · constructor
    · intro h
      rw [h] at hsq
      have : mw ^ 2 * (1 - 0.5 * (Real.sin w + 1)) = 0 := by linarith
      rcases mul_eq_zero.1 this with h' | h'
      · have : mw = 0 := by simpa using h'
        linarith
      · norm_num at h' ⊢; linarith
    · intro h
      rw [h] at hsq
      have : fwhmOf mw w ^ 2 = mw ^ 2 := by rw [hsq]; ring
      exact (sq_eq_sq₀ hn hmw.le).1 this

/-! ### Folding -/

theorem fold_spec (w : ℝ) :
    -(Real.pi / 2) ≤ fold w ∧ fold w ≤ Real.pi / 2 ∧ Real.sin (fold w) = Real.sin w := by
  have hpi := Real.pi_pos
  unfold fold
  simp only
  set n := ⌊(w + Real.pi / 2) / Real.pi⌋ with hn
  have h1 : (n : ℝ) ≤ (w + Real.pi / 2) / Real.pi := Int.floor_le _
  have h2 : (w + Real.pi / 2) / Real.pi < n + 1 := Int.lt_floor_add_one _
  rw [le_div_iff₀ hpi] at h1
  rw [div_lt_iff₀ hpi] at h2
  split
  · rename_i he
    refine ⟨by nlinarith, by nlinarith, ?_⟩
    obtain ⟨k, hk⟩ : ∃ k : ℤ, n = 2 * k := ⟨n / 2, by omega⟩
    rw [hk]
    push_cast
    rw [show w - Real.pi * (2 * (k : ℝ)) = w - k * (2 * Real.pi) by ring, Real.sin_sub_int_mul_two_pi]
  · rename_i ho
    refine ⟨by nlinarith, by nlinarith, ?_⟩
    obtain ⟨k, hk⟩ : ∃ k : ℤ, n = 2 * k + 1 := ⟨n / 2, by omega⟩
    rw [hk]
    push_cast
    rw [show Real.pi * (2 * (k : ℝ) + 1) - w = (Real.pi - w) + k * (2 * Real.pi) by ring,
      Real.sin_add_int_mul_two_pi, Real.sin_pi_sub]

theorem fold_of_mem {w : ℝ} (h1 : -(Real.pi / 2) ≤ w) (h2 : w ≤ Real.pi / 2) : fold w = w := by
  obtain ⟨a, b, c⟩ := fold_spec w
  have := Real.injOn_sin ⟨a, b⟩ ⟨h1, h2⟩ c
  exact this

/-- **C32.** A peak function can be made exactly for those values of `maxwidth` for which it has a peak of positive FWHM
not above `maxwidth`; any other value is refused with ValueError. -/
theorem c32_constructor (mw : ℝ) :
    (init mw = .ok () ↔ ∃ w, 0 < fwhmOf mw w ∧ fwhmOf mw w ≤ mw) ∧
    ((∀ w, ¬ (0 < fwhmOf mw w ∧ fwhmOf mw w ≤ mw)) → init mw = .error .value) := by
  have key : (∃ w, 0 < fwhmOf mw w ∧ fwhmOf mw w ≤ mw) ↔ 0 < mw := by
    constructor
    · rintro ⟨w, h, h'⟩; linarith
    · intro h
      refine ⟨Real.pi / 2, ?_, (c32_fwhm_bounds h _).2.1⟩
      rw [(c32_fwhm_bounds h _).2.2.2 (Real.sin_pi_div_two)]
      exact h
  constructor
  · rw [key]
    unfold init
    constructor
    · intro h
      by_contra hc
      rw [if_pos (not_lt.1 hc)] at h
      cases h
    · intro h
      rw [if_neg (not_le.2 h)]
  · intro h
    unfold init
    rw [if_pos]
    by_contra hc
    obtain ⟨w, hw⟩ := key.2 (not_le.1 hc)
    exact h w hw

/-- **C31.** Normalising internal parameters brings the width into `[-π/2, π/2]` and the area to its
absolute value, is idempotent, and leaves the FWHM and the value of the peak at every point
unchanged, for both peak functions. -/
theorem c31_normalise (mw : ℝ) (p : P) :
    ∃ q, transform mw p "internal" "internal" = .ok (some q) ∧ q.pos = p.pos ∧
      -(Real.pi / 2) ≤ q.wid ∧ q.wid ≤ Real.pi / 2 ∧ 0 ≤ q.area ∧
      transform mw q "internal" "internal" = .ok (some q) ∧
      fwhmOf mw q.wid = fwhmOf mw p.wid ∧
      ∀ s r, value s mw q r = value s mw p r := by
  obtain ⟨h1, h2, h3⟩ := fold_spec p.wid
  refine ⟨⟨p.pos, fold p.wid, |p.area|⟩, ?_, rfl, h1, h2, abs_nonneg _, ?_, ?_, ?_⟩
  · simp [transform, transformWith, toInternal, fromInternal, Except.map]
  · simp [transform, transformWith, toInternal, fromInternal, Except.map, fold_of_mem h1 h2]
  · simp only [fwhmOf, h3]
  · intro s r
    cases s <;> simp only [value, h3, abs_abs]

/-- Non-trivial instance: width 4 (outside the principal range) and a negative area are changed by
normalising, so the theorem is not about the identity. -/
example : fold 4 ≠ 4 := by
  intro h
  have := (fold_spec 4).2.1
  rw [h] at this
  have := Real.pi_lt_d2
  norm_num at this
  linarith

theorem arcsin_arg {mw w : ℝ} (hmw : 0 < mw) (h0 : -mw ≤ w) (h : w ≤ mw) :
    -1 ≤ 2 * w ^ 2 / mw ^ 2 - 1 ∧ 2 * w ^ 2 / mw ^ 2 - 1 ≤ 1 := by
  have h2 : 0 < mw ^ 2 := by positivity
  have h3 : w ^ 2 ≤ mw ^ 2 := sq_le_sq' h0 h
  constructor
  · have : 0 ≤ 2 * w ^ 2 / mw ^ 2 := by positivity
    linarith
  · have : 2 * w ^ 2 / mw ^ 2 ≤ 2 := by rw [div_le_iff₀ h2]; linarith
    linarith

theorem fwhmOf_arcsin {mw w : ℝ} (hmw : 0 < mw) (h0 : 0 ≤ w) (h : w ≤ mw) :
    fwhmOf mw (Real.arcsin (2 * w ^ 2 / mw ^ 2 - 1)) = w := by
  obtain ⟨a, b⟩ := arcsin_arg hmw (by linarith) h
  unfold fwhmOf
  rw [Real.sin_arcsin a b]
  have : (0.5 : ℝ) * (2 * w ^ 2 / mw ^ 2 - 1 + 1) * mw ^ 2 = w ^ 2 := by
    field_simp; ring
  rw [this, Real.sqrt_sq h0]

theorem fold_arcsin (x : ℝ) : fold (Real.arcsin x) = Real.arcsin x :=
  fold_of_mem (Real.neg_pi_div_two_le_arcsin x) (Real.arcsin_le_pi_div_two x)

theorem transform_pwa {mw : ℝ} (hmw : 0 < mw) (p : P) (h0 : 0 ≤ p.wid) (h : p.wid ≤ mw) :
    transform mw p "pwa" "internal" =
      .ok (some ⟨p.pos, Real.arcsin (2 * p.wid ^ 2 / mw ^ 2 - 1), p.area⟩) := by
  have := arcsin_arg hmw (by linarith) h
  simp [transform, transformWith, toInternal, fromInternal, Except.map, h.not_gt, arcsin?, this]

theorem transform_msa {mw : ℝ} (hmw : 0 < mw) (p : P) (h0 : 0 ≤ p.wid)
    (h : p.wid * sigma2fwhm ≤ mw) :
    transform mw p "mu_sigma_area" "internal" =
      .ok (some ⟨p.pos, Real.arcsin (2 * (p.wid * sigma2fwhm) ^ 2 / mw ^ 2 - 1), p.area⟩) := by
  have hs := sigma2fwhm_pos
  have h0' : 0 ≤ p.wid * sigma2fwhm := by positivity
  have := arcsin_arg hmw (by linarith) h
  simp [transform, transformWith, toInternal, fromInternal, Except.map, h.not_gt, arcsin?, this]

theorem transform_to_pwa (mw : ℝ) (p : P) :
    transform mw p "internal" "pwa" = .ok (some ⟨p.pos, fwhmOf mw p.wid, |p.area|⟩) := by
  obtain ⟨-, -, h3⟩ := fold_spec p.wid
  simp [transform, transformWith, toInternal, fromInternal, Except.map, fwhmOf, h3]

theorem transform_to_msa (mw : ℝ) (p : P) :
    transform mw p "internal" "mu_sigma_area" =
      .ok (some ⟨p.pos, fwhmOf mw p.wid / sigma2fwhm, |p.area|⟩) := by
  obtain ⟨-, -, h3⟩ := fold_spec p.wid
  simp [transform, transformWith, toInternal, fromInternal, Except.map, fwhmOf, h3]

/-- **C31.** Position, FWHM and area, converted to the internal format and back, are returned exactly
when `0 ≤ width ≤ maxwidth` and the area is not negative (a negative area comes back positive); the
same for position, sigma and area. -/
theorem c31_roundtrip {mw : ℝ} (hmw : 0 < mw) (p : P) (h0 : 0 ≤ p.wid) :
    (p.wid ≤ mw → ∃ q, transform mw p "pwa" "internal" = .ok (some q) ∧
      transform mw q "internal" "pwa" = .ok (some ⟨p.pos, p.wid, |p.area|⟩)) ∧
    (p.wid * sigma2fwhm ≤ mw → ∃ q, transform mw p "mu_sigma_area" "internal" = .ok (some q) ∧
      transform mw q "internal" "mu_sigma_area" = .ok (some ⟨p.pos, p.wid, |p.area|⟩)) := by
  have hs := sigma2fwhm_pos
  constructor
  · intro h
    refine ⟨_, transform_pwa hmw p h0 h, ?_⟩
    rw [transform_to_pwa]
    simp only [fwhmOf_arcsin hmw h0 h]
  · intro h
    refine ⟨_, transform_msa hmw p h0 h, ?_⟩
    rw [transform_to_msa]
    simp only [fwhmOf_arcsin hmw (by positivity : 0 ≤ p.wid * sigma2fwhm) h]
    rw [mul_div_assoc, div_self hs.ne', mul_one]

/-- **C31.** The other way round: internal parameters converted to FWHM (or sigma) and back come out
normalised. -/
theorem c31_internal_roundtrip {mw : ℝ} (hmw : 0 < mw) (p : P) (f : String)
    (hf : f = "pwa" ∨ f = "mu_sigma_area") :
    ∃ q, transform mw p "internal" f = .ok (some q) ∧
      transform mw q f "internal" = transform mw p "internal" "internal" := by
  have hs := sigma2fwhm_pos
  obtain ⟨h1, h2, h3⟩ := fold_spec p.wid
  obtain ⟨b1, b2, -⟩ := c32_fwhm_bounds hmw p.wid
  have hnorm : transform mw p "internal" "internal" = .ok (some ⟨p.pos, fold p.wid, |p.area|⟩) := by
    simp [transform, transformWith, toInternal, fromInternal, Except.map]
  have key : Real.arcsin (2 * fwhmOf mw p.wid ^ 2 / mw ^ 2 - 1) = fold p.wid := by
    rw [fwhmOf_sq]
    have : 2 * (0.5 * (Real.sin p.wid + 1) * mw ^ 2) / mw ^ 2 - 1 = Real.sin (fold p.wid) := by
      rw [h3]; field_simp; ring
    rw [this, Real.arcsin_sin h1 h2]
  rcases hf with rfl | rfl
  · refine ⟨_, transform_to_pwa mw p, ?_⟩
    rw [transform_pwa hmw _ b1 b2, hnorm]
    simp only [key]
  · have e : fwhmOf mw p.wid / sigma2fwhm * sigma2fwhm = fwhmOf mw p.wid := by field_simp
    refine ⟨_, transform_to_msa mw p, ?_⟩
    rw [transform_msa hmw _ (by simp only; positivity) (by simp only [e]; exact b2), hnorm]
    simp only [e, key]

/-- **C31.** Direct conversion between FWHM and sigma multiplies or divides by `2 sqrt(2 ln 2)`. -/
theorem c31_pwa_sigma {mw : ℝ} (hmw : 0 < mw) (p : P) (h0 : 0 ≤ p.wid) :
    (p.wid ≤ mw → transform mw p "pwa" "mu_sigma_area" =
      .ok (some ⟨p.pos, p.wid / (2 * Real.sqrt (2 * Real.log 2)), p.area⟩)) ∧
    (p.wid * (2 * Real.sqrt (2 * Real.log 2)) ≤ mw → transform mw p "mu_sigma_area" "pwa" =
      .ok (some ⟨p.pos, p.wid * (2 * Real.sqrt (2 * Real.log 2)), p.area⟩)) := by
  have hs := sigma2fwhm_pos
  constructor
  · intro h
    have ha := arcsin_arg hmw (by linarith) h
    have := fwhmOf_arcsin hmw h0 h
    unfold fwhmOf at this
    simp [transform, transformWith, toInternal, fromInternal, Except.map, h.not_gt, arcsin?, ha, this,
      sigma2fwhm]
  · intro h
    have h : p.wid * sigma2fwhm ≤ mw := h
    have h0' : 0 ≤ p.wid * sigma2fwhm := by positivity
    have ha := arcsin_arg hmw (by linarith) h
    have := fwhmOf_arcsin hmw h0' h
    unfold fwhmOf at this
    have g : transform mw p "mu_sigma_area" "pwa" = .ok (some ⟨p.pos, p.wid * sigma2fwhm, p.area⟩) := by
      simp [transform, transformWith, toInternal, fromInternal, Except.map, h.not_gt, arcsin?, ha, this]
    exact g

/-- **C32.** Asking for a FWHM larger than `maxwidth` (directly, or through sigma) raises
SrMiseTransformationError, and nothing else with a non-negative width does. -/
theorem c32_too_wide {mw : ℝ} (hmw : 0 < mw) (p : P) (h0 : 0 ≤ p.wid) :
    (transform mw p "pwa" "internal" = .error .transformation ↔ mw < p.wid) ∧
    (transform mw p "mu_sigma_area" "internal" = .error .transformation ↔
      mw < p.wid * sigma2fwhm) ∧
    (∀ f, transform mw p "internal" f ≠ .error .transformation) := by
  refine ⟨?_, ?_, ?_⟩
  · constructor
    · intro h
      by_contra hc
      rw [transform_pwa hmw p h0 (not_lt.1 hc)] at h
      simp at h
    · intro h
      simp [transform, transformWith, toInternal, h]
  · constructor
    · intro h
      by_contra hc
      rw [transform_msa hmw p h0 (not_lt.1 hc)] at h
      simp at h
    · intro h
      simp [transform, transformWith, toInternal, h]
  · intro f h
    unfold transform transformWith toInternal fromInternal at h
    by_cases h1 : f = "internal"
    · simp [h1, Except.map] at h
    · by_cases h2 : f = "pwa"
      · simp [h2, Except.map] at h
      · by_cases h3 : f = "mu_sigma_area"
        · simp [h3, Except.map] at h
        · simp [h1, h2, h3, Ne.symm h1, Except.map] at h

/-- Non-trivial instance of the round trip. -/
example : ∃ q, transform 2 ⟨3, 1, 5⟩ "pwa" "internal" = .ok (some q) ∧
    transform 2 q "internal" "pwa" = .ok (some ⟨3, 1, |5|⟩) :=
  (c31_roundtrip (mw := 2) (by norm_num) ⟨3, 1, 5⟩ (by norm_num)).1 (by norm_num)

/-- **C31, finding.** A width below `-maxwidth` is not rejected: the parameters become NaN. -/
theorem c31_very_negative_width_nan {mw : ℝ} (hmw : 0 < mw) (p : P) (h : p.wid < -mw) :
    transform mw p "pwa" "internal" = .ok none := by
  have : ¬ (2 * p.wid ^ 2 / mw ^ 2 - 1 ≤ 1) := by
    rw [not_le]
    have h1 : mw ^ 2 < p.wid ^ 2 := by nlinarith
    have h2 : (2 : ℝ) < 2 * p.wid ^ 2 / mw ^ 2 := by
      rw [lt_div_iff₀ (by positivity)]; linarith
    linarith
  have h3 : ¬ (mw < p.wid) := by linarith
  have h4 : arcsin? (2 * p.wid ^ 2 / mw ^ 2 - 1) = none := by
    unfold arcsin?
    rw [if_neg (by tauto)]
  simp [transform, transformWith, toInternal, h3, h4]

/-- **C31, finding.** When the three parameters given are integers the copied array is integral and the
internal width is truncated: a peak requested with FWHM 1 (maxwidth 2) gets FWHM √2. -/
theorem c31_integer_parameters_truncated :
    ∃ q, transformWith truncInt 2 ⟨3, 1, 5⟩ "pwa" "internal" = .ok (some q) ∧
      fwhmOf 2 q.wid = Real.sqrt 2 := by
  have harg : (2 * (1 : ℝ) ^ 2 / 2 ^ 2 - 1) = -(1 / 2) := by norm_num
  have hneg : Real.arcsin (-(1 / 2)) < 0 := by rw [Real.arcsin_lt_zero]; norm_num
  have hgt : -1 < Real.arcsin (-(1 / 2)) := by
    rw [show (-1 : ℝ) = -1 from rfl]
    apply (Real.lt_arcsin_iff_sin_lt' _).2
    · rw [Real.sin_neg]
      have := Real.sin_gt_sub_cube (x := 1) (by norm_num)
      norm_num at this ⊢
      linarith
    · have := Real.pi_gt_three
      constructor <;> linarith
  have htr : truncInt (Real.arcsin (-(1 / 2))) = 0 := by
    unfold truncInt
    rw [if_neg (by linarith)]
    have : ⌈Real.arcsin (-(1 / 2))⌉ = 0 := by
      rw [Int.ceil_eq_iff]
      constructor
      · push_cast; linarith
      · push_cast; linarith
    rw [this]; simp
  refine ⟨⟨3, 0, 5⟩, ?_, ?_⟩
  · have h4 : arcsin? (2 * (1 : ℝ) ^ 2 / 2 ^ 2 - 1) = some (Real.arcsin (-(1 / 2))) := by
      unfold arcsin?
      rw [harg, if_pos (by norm_num)]
    have h5 : ¬ ((2 : ℝ) < 1) := by norm_num
    simp only [transformWith, toInternal, fromInternal, h4, gt_iff_lt, h5]
    simp only [Option.map_some, htr]
    simp [Except.map]
  · unfold fwhmOf
    rw [Real.sin_zero]
    norm_num

end Verif.Peaks
