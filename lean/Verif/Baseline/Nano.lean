import Verif.Baseline.Poly
import Mathlib.Analysis.Calculus.Deriv.Inv
import Mathlib.Analysis.Calculus.Deriv.Pow
import Mathlib.Analysis.Calculus.Deriv.Abs
import Mathlib.Topology.Order.OrderClosed
import Mathlib.Topology.ContinuousOn

/-!
# C39: the baseline of a spherical nanoparticle
-/

namespace Verif.Baseline

open Verif.Py

section

variable {K : Type} [Field K] [LinearOrder K]

omit [Field K] in
theorem takeWhile_iff (p : K → Bool) (hp : ∀ a b, a ≤ b → p b = true → p a = true) (l : List K)
    (hl : l.Pairwise (· ≤ ·)) (i : ℕ) (hi : i < l.length) :
    i < (l.takeWhile p).length ↔ p l[i] = true := by
  induction l generalizing i with
  | nil => simp at hi
  | cons a l ih =>
    rw [List.pairwise_cons] at hl
    rw [List.takeWhile_cons]
    by_cases ha : p a = true
    · rw [if_pos ha]
      match i with
      | 0 => simp [ha]
      | i + 1 =>
        have := ih hl.2 i (by simpa using hi)
        simpa using this
    · rw [if_neg ha]
      simp only [List.length_nil, not_lt_zero, false_iff]
      match i with
      | 0 => simpa using ha
      | i + 1 =>
        intro h
        exact ha (hp a _ (hl.1 _ (List.getElem_mem _)) h)

/-- **C39.** On a sorted grid, the array version gives at every point what the scalar version gives there (for
the value and for both rows of the Jacobian). -/
theorem c39_array (f : K → K → K → K) (s R : K) (r : List K) (hr : r.Pairwise (· ≤ ·)) :
    nanoArray f s R r = .ok (r.map (nanoScalar f s R)) := by
  unfold nanoArray
  obtain ⟨out, h1, h2, h3⟩ := setSlice_ok (r.map (fun _ => (0 : K))) (some (nanoDomain R r))
    ((getSlice r (some (nanoDomain R r))).map (f s R)) (by
      rw [List.length_map, length_getSlice, length_getSlice, List.length_map])
  rw [h1]
  congr 1
  apply List.ext_getElem?
  intro i
  rw [h3, List.length_map]
  by_cases hi : i < r.length
  swap
  · have hb := bounds_le r.length (some (nanoDomain R r))
    rw [if_neg (by omega), List.getElem?_eq_none (by rw [List.length_map]; omega),
      List.getElem?_eq_none (by rw [List.length_map]; omega)]
  · rw [List.getElem?_map, List.getElem?_map]
    rw [List.getElem?_map, List.getElem?_eq_getElem hi]
    simp only [Option.map_some]
    have hlo := takeWhile_iff (fun v => decide (v ≤ (0 : K))) (by
      intro a b hab hb; simp only [decide_eq_true_eq] at *; exact hab.trans hb) r hr i hi
    have hhi := takeWhile_iff (fun v => decide (v < 2 * R)) (by
      intro a b hab hb; simp only [decide_eq_true_eq] at *; exact lt_of_le_of_lt hab hb) r hr i hi
    simp only [decide_eq_true_eq] at hlo hhi
    have hbd : ((bounds r.length (some (nanoDomain R r))).1 ≤ i ∧
        i < (bounds r.length (some (nanoDomain R r))).2) ↔ ¬ (r[i] ≤ 0 ∨ 2 * R ≤ r[i]) := by
      have l1 : (r.takeWhile (fun v => decide (v ≤ (0 : K)))).length ≤ r.length := (List.takeWhile_sublist _).length_le
      have l2 : (r.takeWhile (fun v => decide (v < 2 * R))).length ≤ r.length := (List.takeWhile_sublist _).length_le
      rw [not_or, ← hlo, not_le (a := 2 * R), ← hhi]
      simp only [nanoDomain, bounds]
      omega
    unfold nanoScalar
    by_cases hc : r[i] ≤ 0 ∨ 2 * R ≤ r[i]
    · rw [if_pos hc, if_neg (fun h => (hbd.1 h) hc)]
    · rw [if_neg hc, if_pos (hbd.2 hc)]
      have := hbd.2 hc
      rw [getElem?_getSlice r _ i this.1 this.2, List.getElem?_eq_getElem hi]
      rfl

/-- **C39.** Hence the value of the baseline on a sorted grid, and the refusal of a wrong number of
parameters. -/
theorem c39_value (pars r : List K) (hr : r.Pairwise (· ≤ ·)) :
    (∀ s R, pars = [s, R] → nanoValue pars r = .ok (r.map (nanoScalar nanoRaw s R))) ∧
    (pars.length ≠ 2 → nanoValue pars r = .error .value) ∧
    (∀ s R f0 f1, pars = [s, R] → nanoJacobian pars r [f0, f1] =
      .ok [if f0 then some (r.map (nanoScalar nanoJacScaleRaw s R)) else none,
           if f1 then some (r.map (nanoScalar nanoJacRadiusRaw s R)) else none]) := by
  refine ⟨?_, ?_, ?_⟩
  · rintro s R rfl
    exact c39_array nanoRaw s R r hr
  · intro h
    unfold nanoValue
    split
    · simp at h
    · rfl
  · rintro s R f0 f1 rfl
    unfold nanoJacobian
    simp only [c39_array _ s R r hr]
    cases f0 <;> cases f1 <;> rfl

end

/-- Instance of the hypotheses, and a value: scale 1, radius 2 at −1, 0, 1, 3, 4, 5. -/
example : ([-1, 0, 1, 3, 4, 5] : List ℚ).Pairwise (· ≤ ·) ∧
    nanoValue [1, 2] ([-1, 0, 1, 3, 4, 5] : List ℚ) = .ok [0, 0, -(81/128), -(33/128), 0, 0] := by
  constructor <;> decide +kernel

/-! ### Over the reals -/

/-- The baseline as a function of scale, radius and distance. -/
noncomputable abbrev nano (s R r : ℝ) : ℝ := nanoScalar nanoRaw s R r

/-- **C39.** For a positive radius the baseline is `-|scale| r (1 - r/(2R))² (1 + r/(4R))` between 0 and `2R`
and 0 elsewhere; it is never positive, and continuous in `r`. -/
theorem c39_shape (s R : ℝ) (hR : 0 < R) :
    (∀ r, 0 ≤ r → r ≤ 2 * R → nano s R r = -|s| * r * ((1 - r / (2 * R)) ^ 2 * (1 + r / (4 * R)))) ∧
    (∀ r, r ≤ 0 ∨ 2 * R ≤ r → nano s R r = 0) ∧ (∀ r, nano s R r ≤ 0) ∧ Continuous (nano s R) := by
  have h1 : ∀ r, 0 ≤ r → r ≤ 2 * R →
      nano s R r = -|s| * r * ((1 - r / (2 * R)) ^ 2 * (1 + r / (4 * R))) := by
    intro r h0 h2
    show nanoScalar nanoRaw s R r = _
    unfold nanoScalar
    by_cases hc : r ≤ 0 ∨ 2 * R ≤ r
    · rw [if_pos hc]
      rcases hc with hc | hc
      · rw [le_antisymm hc h0]; simp
      · rw [le_antisymm h2 hc, div_self (by positivity)]; simp
    · rw [if_neg hc]
      unfold nanoRaw gammaOf
      rw [abs_of_pos hR]
      field_simp
      ring
  have h2 : ∀ r, r ≤ 0 ∨ 2 * R ≤ r → nano s R r = 0 := by
    intro r h
    show nanoScalar nanoRaw s R r = _
    unfold nanoScalar
    rw [if_pos h]
  refine ⟨h1, h2, ?_, ?_⟩
  · intro r
    by_cases hc : r ≤ 0 ∨ 2 * R ≤ r
    · rw [h2 r hc]
    · rw [not_or, not_le, not_le] at hc
      rw [h1 r hc.1.le hc.2.le]
      have : 0 ≤ |s| * r * ((1 - r / (2 * R)) ^ 2 * (1 + r / (4 * R))) := by
        have := hc.1
        positivity
      linarith
  · have hg : Continuous (fun r : ℝ => -|s| * r * ((1 - r / (2 * R)) ^ 2 * (1 + r / (4 * R)))) := by fun_prop
    have e : nano s R = fun r => if r ≤ 0 then 0 else if r ≤ 2 * R then
        -|s| * r * ((1 - r / (2 * R)) ^ 2 * (1 + r / (4 * R))) else 0 := by
      funext r
      by_cases a : r ≤ 0
      · rw [if_pos a, h2 r (Or.inl a)]
      · rw [if_neg a]
        by_cases b : r ≤ 2 * R
        · rw [if_pos b, h1 r (by linarith) b]
        · rw [if_neg b, h2 r (Or.inr (by linarith))]
    rw [e]
    refine Continuous.if_le continuous_const ?_ continuous_id continuous_const ?_
    · refine Continuous.if_le hg continuous_const continuous_id continuous_const ?_
      intro x hx
      rw [hx, div_self (by positivity)]
      simp
    · intro x hx
      rw [hx, if_pos (by positivity)]
      simp

/-- **C39, finding.** The parameters are documented as unconstrained, negative values being equivalent to
their absolute values, and that is how they are converted for output.  But a negative radius gives the baseline 0
everywhere. -/
theorem c39_negative_radius (s R r : ℝ) (hR : R ≤ 0) :
    nano s R r = 0 ∧ nanoTransform [s, R] "internal" "internal" = .ok [|s|, |R|] := by
  constructor
  · show nanoScalar nanoRaw s R r = 0
    unfold nanoScalar
    rw [if_pos]
    by_cases h : r ≤ 0
    · exact Or.inl h
    · right; linarith
  · simp [nanoTransform]

/-- Instance: scale 1 and radius −2 is written as radius 2; the baseline at 1 is 0 before, −81/128 after. -/
example : nano 1 (-2) 1 = 0 ∧ nano 1 2 1 = -(81 / 128) := by
  refine ⟨(c39_negative_radius 1 (-2) 1 (by norm_num)).1, ?_⟩
  rw [(c39_shape 1 2 (by norm_num)).1 1 (by norm_num) (by norm_num)]
  norm_num

theorem raw_deriv_radius (s r R : ℝ) (hR : 0 < R) :
    HasDerivAt (fun R' => -|s| * r * gammaOf (r / R')) (nanoJacRadiusRaw s R r) R := by
  have h1 : HasDerivAt (fun R' : ℝ => r / R') (-r / R ^ 2) R := by
    have := (hasDerivAt_inv hR.ne').const_mul r
    simpa [div_eq_mul_inv] using this
  have h2 : HasDerivAt (fun R' : ℝ => gammaOf (r / R'))
      (-(3 / 4 * (-r / R ^ 2)) + 1 / 16 * (3 * (r / R) ^ 2 * (-r / R ^ 2))) R := by
    unfold gammaOf
    have := ((h1.const_mul (3 / 4)).const_sub 1).add ((h1.pow 3).const_mul (1 / 16))
    refine HasDerivAt.congr_deriv (f := fun R' : ℝ => 1 - 3 / 4 * (r / R') + 1 / 16 * (r / R') ^ 3) this ?_
    simp
  have h3 := h2.const_mul (-|s| * r)
  refine h3.congr_deriv ?_
  unfold nanoJacRadiusRaw
  rw [sign_pos hR, abs_of_pos hR]
  simp only [SignType.coe_one]
  field_simp
  ring

/-- **C39.** The radius row of the Jacobian is the derivative of the value in the radius, for every scale, radius
and distance. -/
theorem c39_jacobian_radius (s R r : ℝ) :
    HasDerivAt (fun R' => nano s R' r) (nanoScalar nanoJacRadiusRaw s R r) R := by
  by_cases hr : r ≤ 0
  · have e : (fun R' => nano s R' r) = fun _ => 0 := by
      funext R'; show nanoScalar nanoRaw s R' r = 0; unfold nanoScalar; rw [if_pos (Or.inl hr)]
    rw [e]
    unfold nanoScalar
    rw [if_pos (Or.inl hr)]
    exact hasDerivAt_const _ _
  rw [not_le] at hr
  have hzero : ∀ R', 2 * R' ≤ r → nano s R' r = 0 := by
    intro R' h; show nanoScalar nanoRaw s R' r = 0; unfold nanoScalar; rw [if_pos (Or.inr h)]
  have hraw : ∀ R', r < 2 * R' → nano s R' r = -|s| * r * gammaOf (r / R') := by
    intro R' h
    show nanoScalar nanoRaw s R' r = _
    unfold nanoScalar nanoRaw
    rw [if_neg (by rw [not_or, not_le, not_le]; exact ⟨hr, h⟩), abs_of_pos (by linarith : 0 < R')]
  rcases lt_trichotomy (2 * R) r with h | h | h
  · have : nanoScalar nanoJacRadiusRaw s R r = 0 := by unfold nanoScalar; rw [if_pos (Or.inr h.le)]
    rw [this]
    refine (hasDerivAt_const R (0 : ℝ)).congr_of_eventuallyEq ?_
    have : ∀ᶠ R' in nhds R, 2 * R' < r := by
      have : Continuous (fun R' : ℝ => 2 * R') := by fun_prop
      exact this.continuousAt.eventually_lt continuousAt_const h
    exact this.mono (fun R' h' => hzero R' h'.le)
  · have hR : 0 < R := by linarith
    have e0 : nanoScalar nanoJacRadiusRaw s R r = 0 := by unfold nanoScalar; rw [if_pos (Or.inr h.le)]
    rw [e0]
    have hd := raw_deriv_radius s r R hR
    have e1 : nanoJacRadiusRaw s R r = 0 := by
      unfold nanoJacRadiusRaw
      rw [← h, abs_of_pos hR]
      ring
    rw [e1] at hd
    have e2 : -|s| * r * gammaOf (r / R) = 0 := by
      have : r / R = 2 := by rw [← h]; field_simp
      rw [this]
      unfold gammaOf; norm_num
    have hL : HasDerivWithinAt (fun R' => nano s R' r) 0 (Set.Iic R) R := by
      refine (hasDerivWithinAt_const R (Set.Iic R) (0 : ℝ)).congr ?_ (hzero R h.le)
      intro R' hR'
      exact hzero R' (by have : R' ≤ R := hR'; linarith)
    have hU : HasDerivWithinAt (fun R' => nano s R' r) 0 (Set.Ici R) R := by
      refine hd.hasDerivWithinAt.congr ?_ ?_
      · intro R' hR'
        rcases eq_or_lt_of_le (show R ≤ R' from hR') with he | hl
        · subst he; rw [hzero R h.le, e2]
        · exact hraw R' (by linarith)
      · rw [hzero R h.le, e2]
    have := hL.union hU
    rw [Set.Iic_union_Ici] at this
    exact this.hasDerivAt Filter.univ_mem
  · have hR : 0 < R := by linarith
    have : nanoScalar nanoJacRadiusRaw s R r = nanoJacRadiusRaw s R r := by
      unfold nanoScalar; rw [if_neg (by rw [not_or, not_le, not_le]; exact ⟨hr, h⟩)]
    rw [this]
    refine (raw_deriv_radius s r R hR).congr_of_eventuallyEq ?_
    have : ∀ᶠ R' in nhds R, r < 2 * R' := by
      have : Continuous (fun R' : ℝ => 2 * R') := by fun_prop
      exact continuousAt_const.eventually_lt this.continuousAt h
    exact this.mono (fun R' h' => hraw R' h')

theorem nano_scale (s R r : ℝ) (hR : 0 < R) :
    nano s R r = |s| * nanoScalar nanoJacScaleRaw s R r := by
  show nanoScalar nanoRaw s R r = _
  unfold nanoScalar
  by_cases hc : r ≤ 0 ∨ 2 * R ≤ r
  · rw [if_pos hc, if_pos hc]; simp
  · rw [if_neg hc, if_neg hc]
    unfold nanoRaw nanoJacScaleRaw
    rw [sign_pos hR]
    simp only [SignType.coe_one]
    ring

/-- **C39.** The scale row of the Jacobian is the derivative of the value in the scale when the scale is
positive (and the radius is).  Finding: when the scale is negative it is the *negative* of the derivative, because
the sign of the radius is used instead of the sign of the scale. -/
theorem c39_jacobian_scale (s R r : ℝ) (hR : 0 < R) :
    (0 < s → HasDerivAt (fun s' => nano s' R r) (nanoScalar nanoJacScaleRaw s R r) s) ∧
    (s < 0 → HasDerivAt (fun s' => nano s' R r) (-(nanoScalar nanoJacScaleRaw s R r)) s) := by
  have e : (fun s' => nano s' R r) = fun s' => |s'| * nanoScalar nanoJacScaleRaw s R r := by
    funext s'
    rw [nano_scale s' R r hR]
    rfl
  rw [e]
  constructor
  · intro h
    have := (hasDerivAt_abs_pos h).mul_const (nanoScalar nanoJacScaleRaw s R r)
    simpa using this
  · intro h
    have := (hasDerivAt_abs_neg h).mul_const (nanoScalar nanoJacScaleRaw s R r)
    simpa using this

/-- Instance: at radius 2, distance 1 the row is −81/128 for both signs of the scale, but the derivative at
scale −1 is +81/128. -/
example : nanoScalar nanoJacScaleRaw (1 : ℚ) 2 1 = -(81 / 128) ∧
    nanoScalar nanoJacScaleRaw (-1 : ℚ) 2 1 = -(81 / 128) := by
  constructor <;> decide +kernel

/-- **C39.** Converting parameters is the identity on positive values, and doing it twice is doing it once. -/
theorem c39_transform (pars out : List ℝ) (i o : String) (h : nanoTransform pars i o = .ok out) :
    nanoTransform out i o = .ok out ∧ (pars.length = 2 → (∀ v ∈ pars, 0 ≤ v) → out = pars) := by
  unfold nanoTransform at h
  split at h
  · simp at h
  rename_i h1
  split at h
  · rename_i a b rest
    split at h
    · simp at h
    · rename_i h2
      rw [not_not] at h1 h2
      simp only [Except.ok.injEq] at h
      subst h
      constructor
      · simp [nanoTransform, h1, h2]
      · intro hl hpos
        have : rest = [] := by
          simp at hl; exact hl
        rw [this] at hpos ⊢
        rw [abs_of_nonneg (hpos a (by simp)), abs_of_nonneg (hpos b (by simp))]
  · simp at h

end Verif.Baseline
