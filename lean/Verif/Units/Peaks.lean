import Verif.Peaks.Estimate

/-!
# C104: the peak functions of the package in other units

`Gaussian(maxwidth)` and `GaussianOverR(maxwidth)`, coordinates multiplied by `a` and intensities by `k`: the maximum width and every width
given as one are multiplied by `a`, the internal width is a pure number, and an area is multiplied by `a k` (`Gaussian`) or `a² k` (`GaussianOverR`).
-/

set_option linter.unusedSectionVars false

namespace Verif.Peaks

open Verif.Py

/-- The unit of an area. -/
def areaUnit (s : Shape) (a k : ℝ) : ℝ :=
  match s with
  | .gaussian => a * k
  | .overR => a * a * k

/-- Parameters in the internal format in new units. -/
def P.inUnits (a b : ℝ) (p : P) : P := ⟨a * p.pos, p.wid, b * p.area⟩

/-- Parameters in one of the other formats in new units. -/
def P.outUnits (a b : ℝ) (p : P) : P := ⟨a * p.pos, a * p.wid, b * p.area⟩

/-- Parameters of a format in new units. -/
def P.units (fmt : String) (a b : ℝ) (p : P) : P := if fmt = "internal" then p.inUnits a b else p.outUnits a b

variable {a k b mw : ℝ}

theorem areaUnit_pos (s : Shape) (ha : 0 < a) (hk : 0 < k) : 0 < areaUnit s a k := by
  cases s <;> unfold areaUnit <;> positivity

theorem c1_units (mw : ℝ) : c1 (a * mw) = a * c1 mw := by unfold c1; ring

theorem c2_units (mw : ℝ) : c2 (a * mw) = a ^ 2 * c2 mw := by unfold c2; ring

theorem exponent_units (ha : 0 < a) (x y d : ℝ) : -(a * x - a * y) ^ 2 / (a ^ 2 * d) = -(x - y) ^ 2 / d := by
  have : -(a * x - a * y) ^ 2 = a ^ 2 * -(x - y) ^ 2 := by ring
  rw [this, mul_div_mul_left _ _ (by positivity)]

/-- **C104.** The value of a peak, in any units. -/
theorem c104_peak_value (s : Shape) (ha : 0 < a) (hk : 0 < k) (mw : ℝ) (p : P) (r : ℝ) :
    value s (a * mw) (p.inUnits a (areaUnit s a k)) (a * r) = k * value s mw p r := by
  have hb := areaUnit_pos s ha hk
  cases s with
  | gaussian =>
    simp only [value, P.inUnits, c1_units, c2_units, abs_mul, abs_of_pos hb, mul_assoc, exponent_units ha]
    rw [← mul_assoc k, ← mul_div_assoc]
    congr 1
    unfold areaUnit
    rw [mul_assoc, mul_div_mul_left _ _ ha.ne']
  | overR =>
    simp only [value, P.inUnits, c1_units, c2_units, abs_mul, abs_of_pos hb, abs_of_pos ha, mul_assoc, exponent_units ha]
    rw [← mul_assoc k, ← mul_div_assoc]
    congr 1
    unfold areaUnit
    have e1 : a * a * k * |p.area| = (a * a) * (k * |p.area|) := by ring
    have e2 : a * (|r| * (a * (c1 mw * √(Real.sin p.wid + 1)))) = (a * a) * (|r| * (c1 mw * √(Real.sin p.wid + 1))) := by ring
    rw [e1, e2, mul_div_mul_left _ _ (by positivity)]

theorem ratio_units (ha : 0 < a) (w mw : ℝ) : 2 * (a * w) ^ 2 / (a * mw) ^ 2 = 2 * w ^ 2 / mw ^ 2 := by
  have e1 : 2 * (a * w) ^ 2 = a ^ 2 * (2 * w ^ 2) := by ring
  rw [e1, mul_pow, mul_div_mul_left _ _ (by positivity)]

theorem toInternal_units (ha : 0 < a) (hb : 0 < b) (mw : ℝ) (p : P) (f : String) :
    toInternal id (a * mw) (p.units f a b) f = (toInternal id mw p f).map (Option.map (P.inUnits a b)) := by
  unfold toInternal P.units
  by_cases h1 : f = "internal"
  · simp only [if_pos h1, P.inUnits, abs_mul, abs_of_pos hb]
    rfl
  simp only [if_neg h1]
  by_cases h2 : f = "pwa"
  · simp only [if_pos h2, P.outUnits]
    have e1 : a * p.wid > a * mw ↔ p.wid > mw := mul_lt_mul_iff_right₀ ha
    simp only [e1, ratio_units ha]
    split
    · rfl
    · cases arcsin? (2 * p.wid ^ 2 / mw ^ 2 - 1) <;> rfl
  simp only [if_neg h2]
  by_cases h3 : f = "mu_sigma_area"
  · simp only [if_pos h3, P.outUnits, mul_assoc]
    have e1 : a * (p.wid * sigma2fwhm) > a * mw ↔ p.wid * sigma2fwhm > mw := mul_lt_mul_iff_right₀ ha
    simp only [e1, ratio_units ha]
    split
    · rfl
    · cases arcsin? (2 * (p.wid * sigma2fwhm) ^ 2 / mw ^ 2 - 1) <;> rfl
  simp only [if_neg h3]
  rfl

theorem sqrt_units (ha : 0 < a) (c mw : ℝ) : √(c * (a * mw) ^ 2) = a * √(c * mw ^ 2) := by
  have e : c * (a * mw) ^ 2 = a ^ 2 * (c * mw ^ 2) := by ring
  rw [e, Real.sqrt_mul (by positivity), Real.sqrt_sq ha.le]

theorem fromInternal_units (ha : 0 < a) (mw : ℝ) (p : P) (f : String) :
    fromInternal id (a * mw) (p.inUnits a b) f = (fromInternal id mw p f).map (P.units f a b) := by
  unfold fromInternal
  by_cases h1 : f = "internal"
  · simp only [if_pos h1, Except.map, P.units]
  simp only [if_neg h1]
  by_cases h2 : f = "pwa"
  · simp only [if_pos h2, Except.map, P.units, if_neg h1, P.inUnits, P.outUnits, id, sqrt_units ha]
  simp only [if_neg h2]
  by_cases h3 : f = "mu_sigma_area"
  · simp only [if_pos h3, Except.map, P.units, if_neg h1, P.inUnits, P.outUnits, id, sqrt_units ha, mul_div_assoc]
  simp only [if_neg h3]
  rfl

/-- **C104.** Changing the format, in any units. -/
theorem c104_peak_transform (ha : 0 < a) (hb : 0 < b) (mw : ℝ) (p : P) (i o : String) :
    transform (a * mw) (p.units i a b) i o = (transform mw p i o).map (Option.map (P.units o a b)) := by
  unfold transform transformWith
  by_cases h : i = o ∧ i ≠ "internal"
  · rw [if_pos h, if_pos h, ← h.1]
    rfl
  rw [if_neg h, if_neg h, toInternal_units ha hb]
  cases toInternal id mw p i with
  | error e => rfl
  | ok q =>
    cases q with
    | none =>
      simp only [Except.map, Option.map_none]
      split <;> rfl
    | some q =>
      simp only [Except.map, Option.map_some]
      rw [fromInternal_units ha]
      cases fromInternal id mw q o <;> rfl

theorem to_musigma (ha : 0 < a) (hb : 0 < b) (mw : ℝ) (p : P) :
    transform (a * mw) (p.inUnits a b) "internal" "mu_sigma_area" =
      (transform mw p "internal" "mu_sigma_area").map (Option.map (P.outUnits a b)) := c104_peak_transform ha hb mw p "internal" "mu_sigma_area"

theorem from_musigma (ha : 0 < a) (hb : 0 < b) (mw : ℝ) (p : P) :
    transform (a * mw) (p.outUnits a b) "mu_sigma_area" "internal" =
      (transform mw p "mu_sigma_area" "internal").map (Option.map (P.inUnits a b)) := c104_peak_transform ha hb mw p "mu_sigma_area" "internal"

/-- **C104.** Position and height of the maximum, in any units. -/
theorem c104_peak_max (s : Shape) (ha : 0 < a) (hk : 0 < k) (mw : ℝ) (p : P) :
    max s (a * mw) (p.inUnits a (areaUnit s a k)) = (max s mw p).map (fun m => (a * m.1, k * m.2)) := by
  unfold max
  rw [to_musigma ha (areaUnit_pos s ha hk)]
  cases transform mw p "internal" "mu_sigma_area" with
  | error e => rfl
  | ok q =>
    cases q with
    | none => rfl
    | some t =>
      cases s with
      | gaussian =>
        simp only [Except.map, Option.map_some, P.outUnits]
        rw [c104_peak_value .gaussian ha hk]
      | overR =>
        simp only [Except.map, Option.map_some, P.outUnits]
        have e1 : (a * t.pos) ^ 2 ≤ 4 * (a * t.wid) ^ 2 ↔ t.pos ^ 2 ≤ 4 * t.wid ^ 2 := by
          have : 4 * (a * t.wid) ^ 2 = a ^ 2 * (4 * t.wid ^ 2) := by ring
          rw [this, mul_pow]
          exact mul_le_mul_iff_right₀ (by positivity)
        have e2 : 0.5 * (a * t.pos + √((a * t.pos) ^ 2 - 4 * (a * t.wid) ^ 2)) = a * (0.5 * (t.pos + √(t.pos ^ 2 - 4 * t.wid ^ 2))) := by
          have : (a * t.pos) ^ 2 - 4 * (a * t.wid) ^ 2 = a ^ 2 * (t.pos ^ 2 - 4 * t.wid ^ 2) := by ring
          rw [this, Real.sqrt_mul (by positivity), Real.sqrt_sq ha.le]
          ring
        simp only [e1, e2, c104_peak_value .overR ha hk]
        split <;> rfl

theorem finishScale_units (ha : 0 < a) (hb : 0 < b) (mw : ℝ) (t : P) :
    finishScale (a * mw) (t.outUnits a b) = (finishScale mw t).map (Option.map (P.inUnits a b)) := by
  unfold finishScale
  rw [from_musigma ha hb]
  cases transform mw t "mu_sigma_area" "internal" with
  | error e => cases e <;> rfl
  | ok q => rfl

theorem mul_ne (ha : 0 < a) (x : ℝ) : a * x = 0 ↔ x = 0 := by simp [ha.ne']

theorem scaleGaussian_units (ha : 0 < a) (hb : 0 < b) (mw : ℝ) (p : P) (x scale : ℝ) :
    scaleGaussian (a * mw) (p.inUnits a b) (a * x) scale = (scaleGaussian mw p x scale).map (Option.map (P.inUnits a b)) := by
  unfold scaleGaussian
  split
  · rfl
  split
  · rfl
  simp only
  rw [to_musigma ha hb]
  cases transform mw p "internal" "mu_sigma_area" with
  | error e => rfl
  | ok q =>
    cases q with
    | none => rfl
    | some t =>
      simp only [Except.map, Option.map_some, P.outUnits, mul_ne hb, ← mul_sub, mul_ne ha]
      by_cases h1 : t.area = 0
      · rw [if_pos h1, if_pos h1]
        rfl
      rw [if_neg h1, if_neg h1]
      by_cases h2 : x - t.pos = 0
      · rw [if_pos h2, if_pos h2]
        by_cases h3 : t.wid = 0
        · rw [if_pos h3, if_pos h3]
          rfl
        rw [if_neg h3, if_neg h3]
        have e := finishScale_units ha hb mw ⟨t.pos, 0, 0⟩
        simp only [P.outUnits, mul_zero] at e
        exact e
      rw [if_neg h2, if_neg h2]
      have e1 : 2 * Real.log (1 / scale) * (a * t.wid) ^ 2 / (a * (x - t.pos)) ^ 2 = 2 * Real.log (1 / scale) * t.wid ^ 2 / (x - t.pos) ^ 2 := by
        have : 2 * Real.log (1 / scale) * (a * t.wid) ^ 2 = a ^ 2 * (2 * Real.log (1 / scale) * t.wid ^ 2) := by ring
        rw [this, mul_pow, mul_div_mul_left _ _ (by positivity)]
      rw [e1]
      generalize 2 * Real.log (1 / scale) * t.wid ^ 2 / (x - t.pos) ^ 2 + 1 = den
      split
      · rfl
      split
      · rfl
      have e2 : √((b * t.area) ^ 2 / den) = b * √(t.area ^ 2 / den) := by
        rw [mul_pow, mul_div_assoc, Real.sqrt_mul (by positivity), Real.sqrt_sq hb.le]
      have e3 : a * t.wid * (b * √(t.area ^ 2 / den)) / (b * t.area) = a * (t.wid * √(t.area ^ 2 / den) / t.area) := by
        have : a * t.wid * (b * √(t.area ^ 2 / den)) = b * (a * (t.wid * √(t.area ^ 2 / den))) := by ring
        rw [this, mul_div_mul_left _ _ hb.ne', mul_div_assoc]
      rw [e2, e3]
      exact finishScale_units ha hb mw ⟨t.pos, t.wid * √(t.area ^ 2 / den) / t.area, √(t.area ^ 2 / den)⟩

theorem scaleOverR_units (ha : 0 < a) (hk : 0 < k) (mw : ℝ) (p : P) (x scale : ℝ) :
    scaleOverR (a * mw) (p.inUnits a (areaUnit .overR a k)) (a * x) scale =
      (scaleOverR mw p x scale).map (Option.map (P.inUnits a (areaUnit .overR a k))) := by
  have hb := areaUnit_pos .overR ha hk
  unfold scaleOverR
  split
  · rfl
  split
  · rfl
  simp only
  rw [to_musigma ha hb, c104_peak_max .overR ha hk]
  cases transform mw p "internal" "mu_sigma_area" with
  | error e => rfl
  | ok q =>
    cases q with
    | none => rfl
    | some t =>
      simp only [Except.map, Option.map_some]
      cases max .overR mw p with
      | error e => cases e <;> rfl
      | ok m =>
        obtain ⟨rm, hm⟩ := m
        simp only [P.outUnits, mul_ne ha]
        by_cases h1 : t.wid = 0 ∨ rm = 0
        · rw [if_pos h1, if_pos h1]
          rfl
        rw [if_neg h1, if_neg h1]
        have e1 : (a * x - a * rm) * (a * x - 2 * (a * t.pos) + a * rm) / (2 * (a * t.wid) ^ 2) = (x - rm) * (x - 2 * t.pos + rm) / (2 * t.wid ^ 2) := by
          have n1 : (a * x - a * rm) * (a * x - 2 * (a * t.pos) + a * rm) = a ^ 2 * ((x - rm) * (x - 2 * t.pos + rm)) := by ring
          have n2 : 2 * (a * t.wid) ^ 2 = a ^ 2 * (2 * t.wid ^ 2) := by ring
          rw [n1, n2, mul_div_mul_left _ _ (by positivity)]
        simp only [e1]
        generalize Real.log (1 / scale) + (x - rm) * (x - 2 * t.pos + rm) / (2 * t.wid ^ 2) = lrp
        have e2 : a * x - a * rm + a * rm * lrp = a * (x - rm + rm * lrp) := by ring
        have e3 : 0.5 * (a * rm) * (a * x - a * rm) ^ 2 / (a * (x - rm + rm * lrp)) = a ^ 2 * (0.5 * rm * (x - rm) ^ 2 / (x - rm + rm * lrp)) := by
          have : 0.5 * (a * rm) * (a * x - a * rm) ^ 2 = a * (a ^ 2 * (0.5 * rm * (x - rm) ^ 2)) := by ring
          rw [this, mul_div_mul_left _ _ ha.ne', mul_div_assoc]
        simp only [e2, e3]
        generalize 0.5 * rm * (x - rm) ^ 2 / (x - rm + rm * lrp) = q
        generalize x - rm + rm * lrp = den
        have e4 : a ^ 2 * q ≤ 0 ↔ q ≤ 0 := by
          have hp : 0 < a ^ 2 := by positivity
          constructor
          · intro h; by_contra hn; exact absurd h (not_le.2 (mul_pos hp (not_le.1 hn)))
          · intro h; exact mul_nonpos_of_nonneg_of_nonpos hp.le h
        simp only [mul_ne ha, e4]
        by_cases h2 : den = 0 ∨ q ≤ 0
        · rw [if_pos h2, if_pos h2]
          rfl
        rw [if_neg h2, if_neg h2]
        have e5 : √(a ^ 2 * q) = a * √q := by rw [Real.sqrt_mul (by positivity), Real.sqrt_sq ha.le]
        simp only [e5]
        generalize √q = s2
        have e6 : ((a * s2) ^ 2 + (a * rm) ^ 2) / (a * rm) = a * ((s2 ^ 2 + rm ^ 2) / rm) := by
          have : (a * s2) ^ 2 + (a * rm) ^ 2 = a * (a * (s2 ^ 2 + rm ^ 2)) := by ring
          rw [this, mul_div_mul_left _ _ ha.ne', mul_div_assoc]
        have n3 : ∀ w : ℝ, 2 * (a * w) ^ 2 = a ^ 2 * (2 * w ^ 2) := by intro w; ring
        simp only [e6, n3, exponent_units ha, mul_div_mul_left _ _ ha.ne']
        rw [mul_assoc (areaUnit .overR a k), mul_assoc (areaUnit .overR a k), mul_div_assoc]
        exact finishScale_units ha hb mw ⟨_, _, _⟩

/-! ### estimate_parameters -/

/-- The data in new units. -/
def pt (a k : ℝ) (q : ℝ × ℝ) : ℝ × ℝ := (a * q.1, k * q.2)

theorem minY_units (hk : 0 < k) (c : ℝ × ℝ) : ∀ t : List (ℝ × ℝ), minY (pt a k c) (t.map (pt a k)) = k * minY c t := by
  have key : ∀ (t : List (ℝ × ℝ)) (x : ℝ), (t.map (pt a k)).foldl (fun m q => Min.min m q.2) (k * x) = k * t.foldl (fun m q => Min.min m q.2) x := by
    intro t
    induction t with
    | nil => intro x; rfl
    | cons d t ih =>
      intro x
      simp only [List.map_cons, List.foldl_cons]
      rw [← ih]
      congr 1
      exact (mul_min_of_nonneg _ _ hk.le).symm
  exact fun t => key t c.2

theorem maxY_units (hk : 0 < k) (c : ℝ × ℝ) : ∀ t : List (ℝ × ℝ), maxY (pt a k c) (t.map (pt a k)) = k * maxY c t := by
  have key : ∀ (t : List (ℝ × ℝ)) (x : ℝ), (t.map (pt a k)).foldl (fun m q => Max.max m q.2) (k * x) = k * t.foldl (fun m q => Max.max m q.2) x := by
    intro t
    induction t with
    | nil => intro x; rfl
    | cons d t ih =>
      intro x
      simp only [List.map_cons, List.foldl_cons]
      rw [← ih]
      congr 1
      exact (mul_max_of_nonneg _ _ hk.le).symm
  exact fun t => key t c.2

theorem sum_mul (c : ℝ) (l : List (ℝ × ℝ)) (f g : ℝ × ℝ → ℝ) (h : ∀ q, g (pt a k q) = c * f q) : ((l.map (pt a k)).map g).sum = c * (l.map f).sum := by
  induction l with
  | nil => simp
  | cons d l ih =>
    simp only [List.map_cons, List.sum_cons]
    rw [ih, h, mul_add]

theorem weightedPos_units (hk : 0 < k) (l : List (ℝ × ℝ)) (lo : ℝ) :
    weightedPos? (l.map (pt a k)) (k * lo) = (weightedPos? l lo).map (fun v => a * v) := by
  unfold weightedPos?
  have e1 := sum_mul (a := a) (k := k) (k ^ 2) l (fun q => (q.2 - lo) ^ 2) (fun q => (q.2 - k * lo) ^ 2) (by intro q; simp only [pt]; ring)
  have e2 := sum_mul (a := a) (k := k) (k ^ 2 * a) l (fun q => q.1 * (q.2 - lo) ^ 2) (fun q => q.1 * (q.2 - k * lo) ^ 2) (by intro q; simp only [pt]; ring)
  rw [e1, e2]
  have h1 : k ^ 2 * (l.map (fun q => (q.2 - lo) ^ 2)).sum = 0 ↔ (l.map (fun q => (q.2 - lo) ^ 2)).sum = 0 := by simp [hk.ne']
  simp only [h1]
  split
  · rfl
  · rw [mul_assoc, mul_div_mul_left _ _ (by positivity), mul_div_assoc]
    rfl

theorem sqrtLog_units (ha : 0 < a) (d q : ℝ) : sqrtLog? (a * d) q = (sqrtLog? d q).map (fun v => a * v) := by
  unfold sqrtLog?
  split
  · rfl
  split
  · rfl
  have e : -0.5 * (a * d) ^ 2 / Real.log q = a ^ 2 * (-0.5 * d ^ 2 / Real.log q) := by ring
  have e4 : a ^ 2 * (-0.5 * d ^ 2 / Real.log q) < 0 ↔ -0.5 * d ^ 2 / Real.log q < 0 := by
    have hp : 0 < a ^ 2 := by positivity
    constructor
    · intro h; by_contra hn; exact absurd h (not_lt.2 (mul_nonneg hp.le (not_lt.1 hn)))
    · intro h; exact mul_neg_of_pos_of_neg hp h
  rw [e]
  simp only [e4]
  split
  · rfl
  · rw [Real.sqrt_mul (by positivity), Real.sqrt_sq ha.le]
    rfl

theorem sigmaSide_units (ha : 0 < a) (hk : 0 < k) (e c d : ℝ × ℝ) (pos lo hi : ℝ) :
    sigmaSide? (pt a k e) (pt a k c) (pt a k d) (a * pos) (k * lo) (k * hi) = (sigmaSide? e c d pos lo hi).map (fun v => a * v) := by
  unfold sigmaSide?
  have e1 : (pt a k e).2 < k * hi ↔ e.2 < hi := mul_lt_mul_iff_right₀ hk
  have e2 : (|(pt a k c).1 - a * pos| + |(pt a k d).1 - a * pos|) / 2 = a * ((|c.1 - pos| + |d.1 - pos|) / 2) := by
    simp only [pt, ← mul_sub, abs_mul, abs_of_pos ha]
    ring
  have e3 : (pt a k e).1 - a * pos = a * (e.1 - pos) := by simp only [pt]; ring
  have e4 : (pt a k e).2 / (k * hi) = e.2 / hi := mul_div_mul_left _ _ hk.ne'
  simp only [e1, e2, e3, e4, mul_div_mul_left _ _ hk.ne', sqrtLog_units ha]
  split <;> rfl

theorem guessPW_units (ha : 0 < a) (hk : 0 < k) (c : ℝ × ℝ) (t : List (ℝ × ℝ)) :
    guessPW? (pt a k c) (t.map (pt a k)) = (guessPW? c t).map (fun q => (a * q.1, a * q.2)) := by
  unfold guessPW?
  have e1 : (t.map (pt a k)).getLastD (pt a k c) = pt a k (t.getLastD c) := by
    rw [List.getLastD_eq_getLast?, List.getLastD_eq_getLast?, List.getLast?_map]
    cases t.getLast? <;> rfl
  simp only [e1, minY_units hk, maxY_units hk]
  have e2 : k * minY c t ≠ k * maxY c t ↔ minY c t ≠ maxY c t := by simp [hk.ne']
  simp only [e2]
  by_cases h : minY c t ≠ maxY c t
  · rw [if_pos h, if_pos h, ← List.map_cons, weightedPos_units hk]
    cases weightedPos? (c :: t) (minY c t) with
    | none => rfl
    | some pos =>
      simp only [Option.map_some, sigmaSide_units ha hk]
      cases sigmaSide? c c (t.getLastD c) pos (minY c t) (maxY c t) with
      | none => rfl
      | some sl =>
        cases sigmaSide? (t.getLastD c) c (t.getLastD c) pos (minY c t) (maxY c t) with
        | none => rfl
        | some sr =>
          simp only [Option.map_some]
          congr 2
          ring
  · rw [if_neg h, if_neg h]
    simp only [pt, Option.map_some]
    congr 2 <;> ring

/-- **C104.** The estimated parameters of a peak, in any units. -/
theorem c104_peak_estimate (s : Shape) (ha : 0 < a) (hk : 0 < k) (mw : ℝ) (r y : List ℝ) :
    estimate s (a * mw) (r.map (fun v => a * v)) (y.map (fun v => k * v)) = (estimate s mw r y).map (Option.map (P.inUnits a (areaUnit s a k))) := by
  unfold estimate
  have e0 : (r.map (fun v => a * v)).zip (y.map (fun v => k * v)) = (r.zip y).map (pt a k) := by
    rw [List.zip_map]
    rfl
  have e1 : ((r.zip y).map (pt a k)).filter (fun q => decide (0 < q.2)) = ((r.zip y).filter (fun q => decide (0 < q.2))).map (pt a k) := by
    rw [List.filter_map]
    congr 2
    funext q
    simp [pt, hk]
  simp only [List.length_map, e0, e1]
  split
  · rfl
  split
  · rfl
  cases (r.zip y).filter (fun q => decide (0 < q.2)) with
  | nil => rfl
  | cons c t =>
    simp only [List.map_cons, guessPW_units ha hk]
    cases guessPW? c t with
    | none => rfl
    | some q =>
      obtain ⟨pos, w⟩ := q
      simp only [Option.map_some, maxY_units hk]
      have e2 : a * w > a * mw ↔ w > mw := mul_lt_mul_iff_right₀ ha
      simp only [e2, ratio_units ha]
      cases s with
      | gaussian =>
        split
        · simp only [Except.map, Option.map_some, P.inUnits, areaUnit]
          congr 3
          ring
        · cases arcsin? (2 * w ^ 2 / mw ^ 2 - 1) with
          | none => rfl
          | some i =>
            simp only [Except.map, Option.map_some, P.inUnits, areaUnit]
            congr 3
            ring
      | overR =>
        split
        · simp only [Except.map, Option.map_some, P.inUnits, areaUnit]
          congr 3
          ring
        · cases arcsin? (2 * w ^ 2 / mw ^ 2 - 1) with
          | none => rfl
          | some i =>
            simp only [Except.map, Option.map_some, P.inUnits, areaUnit]
            congr 3
            ring

end Verif.Peaks
