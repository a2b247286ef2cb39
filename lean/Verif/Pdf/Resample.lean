import Verif.Pdf.StdRatio
import Mathlib.Analysis.Real.Pi.Bounds
import Mathlib.Algebra.Order.Floor.Semiring

/-!
# C42: resampling
-/

namespace Verif.Pdf

open Verif.Py Finset

/-- **C42.** The scale of the uncertainties is at least 1; it is 1 unless qmax > 0, Nyquist sampling and scaling are
all enabled, and for sampling at or below the Nyquist rate; otherwise its square is the degree of
oversampling. -/
theorem c42_errorscale (qmax : ℝ) (nyquist scale : Bool) (dr : ℝ) (hdr : 0 < dr) :
    1 ≤ errorscale qmax nyquist scale dr ∧
    (¬ (0 < qmax ∧ nyquist = true ∧ scale = true) → errorscale qmax nyquist scale dr = 1) ∧
    (0 < qmax → Real.pi / qmax ≤ dr → errorscale qmax nyquist scale dr = 1) ∧
    (0 < qmax → nyquist = true → scale = true → dr ≤ Real.pi / qmax →
      errorscale qmax nyquist scale dr ^ 2 = (Real.pi / qmax) / dr) := by
  unfold errorscale
  refine ⟨?_, ?_, ?_, ?_⟩
  · split
    · exact le_max_right _ _
    · exact le_rfl
  · intro h
    rw [if_neg h]
  · intro h0 h
    split
    · rw [max_eq_right]
      rw [Real.sqrt_le_left (by norm_num)]
      rw [one_pow]; exact (div_le_one hdr).2 h
    · rfl
  · intro h0 h1 h2 h
    rw [if_pos ⟨h0, h1, h2⟩]
    have h1 : 1 ≤ Real.pi / qmax / dr := (one_le_div hdr).2 h
    rw [max_eq_left (by rw [Real.one_le_sqrt]; exact h1), Real.sq_sqrt (by linarith)]

/-- Instance: four times the Nyquist rate, scale 2. -/
example : errorscale Real.pi true true (1 / 4) = 2 := by
  have h := (c42_errorscale Real.pi true true (1 / 4) (by norm_num)).2.2.2 Real.pi_pos rfl rfl
    (by rw [div_self Real.pi_ne_zero]; norm_num)
  rw [div_self Real.pi_ne_zero] at h
  have h1 := (c42_errorscale Real.pi true true (1 / 4) (by norm_num)).1
  nlinarith

/-! ### Whittaker–Shannon interpolation -/

theorem sinc_int (k : ℤ) : sinc k = if k = 0 then 1 else 0 := by
  unfold sinc
  by_cases h : k = 0
  · rw [if_pos (by exact_mod_cast h), if_pos h]
  · rw [if_neg (by exact_mod_cast h), if_neg h, mul_comm, Real.sin_int_mul_pi, zero_div]

theorem resampleLoop_eq (dr shift v : ℝ) (i : ℕ) (ys : List ℝ) (acc : ℝ) :
    resampleLoop dr shift v i ys acc =
      acc + ∑ k ∈ range ys.length, ys.getD k 0 * sinc (v / dr - (((i + k : ℕ) : ℝ) + shift)) := by
  induction ys generalizing i acc with
  | nil => simp [resampleLoop]
  | cons y ys ih =>
    rw [resampleLoop, ih, List.length_cons, sum_range_succ', add_assoc]
    congr 1
    rw [add_comm]
    congr 1
    · apply sum_congr rfl
      intro k _
      rw [List.getD_cons_succ]
      congr 3
      push_cast; ring

/-- **C42.** On a uniform grid of at least two points, resampling gives at every new point the Whittaker–Shannon
sum over the samples; in particular at the grid points it reproduces the samples. -/
theorem c42_resample (a dr : ℝ) (hdr : dr ≠ 0) (y new : List ℝ) (hy : 2 ≤ y.length) (hnew : new ≠ []) :
    ∃ out, resample ((List.range y.length).map (fun i : ℕ => a + i * dr)) y new = .ok out ∧
      out = new.map (fun v => ∑ k ∈ range y.length, y.getD k 0 * sinc ((v - (a + k * dr)) / dr)) ∧
      ∀ (j k : ℕ), k < y.length → new[j]? = some (a + k * dr) → out[j]? = y[k]? := by
  obtain ⟨m, hm⟩ : ∃ m, y.length = m + 2 := ⟨y.length - 2, by omega⟩
  have hh : ((List.range y.length).map (fun i : ℕ => a + i * dr)).head? = some a := by
    rw [hm, List.range_succ_eq_map]; simp
  have hl : ((List.range y.length).map (fun i : ℕ => a + i * dr)).getLast? = some (a + ((m + 1 : ℕ) : ℝ) * dr) := by
    rw [hm, List.range_succ]; simp
  obtain ⟨n0, ns, rfl⟩ := List.exists_cons_of_ne_nil hnew
  have hlen : ((List.range y.length).map (fun i : ℕ => a + i * dr)).length = m + 2 := by simp [hm]
  have hd : (a + ((m + 1 : ℕ) : ℝ) * dr - a) / (((m + 2 : ℕ) : ℝ) - 1) = dr := by
    have : (m : ℝ) + 1 ≠ 0 := by positivity
    push_cast
    rw [show (m : ℝ) + 2 - 1 = m + 1 by ring, add_sub_cancel_left, mul_div_cancel_left₀ _ this]
  refine ⟨_, ?_, rfl, ?_⟩
  · unfold resample
    rw [hh, hl]
    simp only
    rw [hlen, if_neg (by omega), hd]
    congr 1
    apply List.map_congr_left
    intro v _
    rw [resampleLoop_eq, mul_zero, zero_add]
    apply sum_congr rfl
    intro k _
    congr 2
    rw [zero_add]
    field_simp
    ring
  · intro j k hk hj
    rw [List.getElem?_map, hj]
    simp only [Option.map_some]
    rw [sum_eq_single k]
    · rw [sub_self, zero_div]
      have : sinc 0 = 1 := by simp [sinc]
      rw [this, mul_one, List.getD_eq_getElem?_getD, List.getElem?_eq_getElem hk]
      rfl
    · intro b _ hb
      have : (a + (k : ℝ) * dr - (a + (b : ℝ) * dr)) / dr = (((k : ℤ) - (b : ℤ) : ℤ) : ℝ) := by
        push_cast
        field_simp
        ring
      rw [this, sinc_int, if_neg (by omega), mul_zero]
    · intro h
      exact absurd (mem_range.2 hk) h

/-- Instance: three samples on 0, ½, 1. -/
example : ∃ out, resample ((List.range 3).map (fun i : ℕ => (0 : ℝ) + i * (1 / 2))) [5, 6, 7] [0 + (1 : ℕ) * (1 / 2)] =
    .ok out ∧ out[0]? = some 6 := by
  obtain ⟨out, h1, -, h3⟩ := c42_resample 0 (1 / 2) (by norm_num) [5, 6, 7] [0 + (1 : ℕ) * (1 / 2)] (by simp) (by simp)
  exact ⟨out, h1, by rw [h3 0 1 (by simp) rfl]; rfl⟩

/-- **C42, finding.** Only the end points of the original grid are used: on a grid that is not uniform, resampling
does not reproduce the data even at the original points. -/
theorem c42_nonuniform_grid : ∃ out, resample [0, 1, 3] [1, 0, 0] [0, 1, 3] = .ok out ∧ out ≠ [1, 0, 0] := by
  refine ⟨[0, 1, 3].map (fun v => resampleLoop (3 / 2) (0 / (3 / 2)) v 0 [1, 0, 0] (v * 0)), ?_, ?_⟩
  · unfold resample
    simp only [List.head?_cons, List.length_cons, List.length_nil]
    norm_num [List.getLast?]
  · intro h
    have h1 := congrArg (fun l => l[1]?) h
    simp only [List.map_cons, List.map_nil, List.getElem?_cons_succ, List.getElem?_cons_zero,
      Option.some.injEq] at h1
    simp only [resampleLoop] at h1
    have h2 : sinc (1 / (3 / 2) - ((0 : ℕ) + 0 / (3 / 2))) = 0 := by linarith
    rw [show (1 / (3 / 2) - ((0 : ℕ) + 0 / (3 / 2)) : ℝ) = 2 / 3 by norm_num] at h2
    unfold sinc at h2
    rw [if_neg (by norm_num), div_eq_zero_iff] at h2
    rcases h2 with h2 | h2
    · have := Real.sin_pos_of_pos_of_lt_pi (x := Real.pi * (2 / 3)) (by positivity)
        (by nlinarith [Real.pi_pos])
      exact absurd h2 this.ne'
    · have := Real.pi_pos
      nlinarith

/-! ### The new grid -/

/-- **C42.** The resampled grid starts at the larger of the data's and the range's lower ends, goes up in steps of
`dr`, and consists of all such points below (never at) the smaller of the upper ends. -/
theorem c42_grid (x0 x1 a b dr : ℝ) (hdr : 0 < dr) (v : ℝ) :
    (v ∈ newGrid x0 x1 a b dr ↔ v < min x1 b ∧ ∃ k : ℕ, v = max x0 a + k * dr) ∧
    (newGrid x0 x1 a b dr).Pairwise (· < ·) := by
  unfold newGrid arange
  constructor
  · rw [List.mem_map]
    constructor
    · rintro ⟨k, hk, rfl⟩
      rw [List.mem_range, Nat.lt_ceil, lt_div_iff₀ hdr] at hk
      exact ⟨by linarith, k, rfl⟩
    · rintro ⟨h, k, rfl⟩
      refine ⟨k, ?_, rfl⟩
      rw [List.mem_range, Nat.lt_ceil, lt_div_iff₀ hdr]
      linarith
  · rw [List.pairwise_map]
    refine List.pairwise_lt_range.imp ?_
    intro i j hij
    have : (i : ℝ) < j := by exact_mod_cast hij
    nlinarith

/-- Instance: the range [0, 1] at ½: the point 1 is left out. -/
example : (0 : ℝ) ∈ newGrid 0 2 0 1 (1 / 2) ∧ (1 / 2 : ℝ) ∈ newGrid 0 2 0 1 (1 / 2) ∧
    (1 : ℝ) ∉ newGrid 0 2 0 1 (1 / 2) := by
  refine ⟨((c42_grid _ _ _ _ _ (by norm_num) _).1).2 ⟨by norm_num, 0, by norm_num⟩,
    ((c42_grid _ _ _ _ _ (by norm_num) _).1).2 ⟨by norm_num, 1, by norm_num⟩, fun h => ?_⟩
  have := (((c42_grid _ _ _ _ _ (by norm_num) _).1).1 h).1
  norm_num at this

/-! ### The new uncertainties -/

/-- **C42.** The uncertainties of the resampled data: as many as grid points, bounded below by the least of the
given uncertainties (so positive if all those are). -/
theorem c42_uncertainties (qmax : ℝ) (nyquist scale : Bool) (dr : ℝ) (hdr : 0 < dr) (x eff r : List ℝ)
    (hx : x.Pairwise (· < ·)) (hl : eff.length = x.length) (hne : x ≠ []) (m : ℝ) (hm : 0 ≤ m) (he : ∀ e ∈ eff, m ≤ e) :
    (newError qmax nyquist scale dr x eff r).length = r.length ∧
    ∀ e ∈ newError qmax nyquist scale dr x eff r, m ≤ e := by
  have key : ∀ (x eff : List ℝ) (v : ℝ), x.Pairwise (· < ·) → eff.length = x.length → x ≠ [] →
      (∀ e ∈ eff, m ≤ e) → m ≤ interp v x eff := by
    intro x
    induction x with
    | nil => intro eff v _ _ h; exact absurd rfl h
    | cons x0 xs ih =>
      intro eff v hx hl _ he
      match eff, hl, he with
      | y0 :: ys, hl, he =>
        match xs, ys, hl, ih, hx, he with
        | [], ys, hl, ih, hx, he =>
          have : interp v [x0] (y0 :: ys) = y0 := by unfold interp; rfl
          rw [this]; exact he y0 (by simp)
        | x1 :: xs, y1 :: ys, hl, ih, hx, he =>
          rw [List.pairwise_cons] at hx
          have h01 : x0 < x1 := hx.1 x1 (by simp)
          have m0 := he y0 (by simp)
          have m1 := he y1 (by simp)
          unfold interp
          by_cases h0 : v ≤ x0
          · rw [if_pos h0]; exact m0
          · rw [if_neg h0]
            by_cases h1 : v < x1
            · rw [if_pos h1]
              rw [not_le] at h0
              have hd : 0 < x1 - x0 := by linarith
              have ht0 : 0 ≤ (v - x0) / (x1 - x0) := div_nonneg (by linarith) hd.le
              have ht1 : (v - x0) / (x1 - x0) ≤ 1 := (div_le_one hd).2 (by linarith)
              have e : y0 + (v - x0) * ((y1 - y0) / (x1 - x0)) =
                  y0 * (1 - (v - x0) / (x1 - x0)) + y1 * ((v - x0) / (x1 - x0)) := by
                field_simp; ring
              rw [e]
              nlinarith [mul_le_mul_of_nonneg_right m0 (by linarith : 0 ≤ 1 - (v - x0) / (x1 - x0)),
                mul_le_mul_of_nonneg_right m1 ht0]
            · rw [if_neg h1]
              exact ih (y1 :: ys) v hx.2 (by simpa using hl) (by simp)
                (fun e hh => he e (List.mem_cons_of_mem _ hh))
  refine ⟨by simp [newError], ?_⟩
  intro e hmem
  unfold newError at hmem
  rw [List.mem_map] at hmem
  obtain ⟨v, -, rfl⟩ := hmem
  have h1 := (c42_errorscale qmax nyquist scale dr hdr).1
  have h2 := key x eff v hx hl hne he
  nlinarith

/-- **C42.** At a grid point the interpolated uncertainty is the given one (before scaling). -/
theorem c42_uncertainty_at_grid (x eff : List ℝ) (hx : x.Pairwise (· < ·)) (hl : eff.length = x.length)
    (i : ℕ) (hi : i < x.length) : eff[i]? = some (interp x[i] x eff) := by
  induction x generalizing eff i with
  | nil => simp at hi
  | cons x0 xs ih =>
    match eff, hl with
    | y0 :: ys, hl =>
      match xs, ys, hl, ih, hx, hi with
      | [], ys, hl, ih, hx, hi =>
        have : i = 0 := by simpa using hi
        subst this
        have : ∀ v, interp v [x0] (y0 :: ys) = y0 := by intro v; unfold interp; rfl
        rw [this]; rfl
      | x1 :: xs, y1 :: ys, hl, ih, hx, hi =>
        rw [List.pairwise_cons] at hx
        have h01 : x0 < x1 := hx.1 x1 (by simp)
        match i with
        | 0 =>
          unfold interp
          simp
        | i + 1 =>
          have := ih (y1 :: ys) hx.2 (by simpa using hl) i (by simpa using hi)
          simp only [List.getElem?_cons_succ, List.getElem_cons_succ]
          rw [this]
          congr 1
          have hi' : i < (x1 :: xs).length := by simpa using hi
          have hlt : x0 < (x1 :: xs)[i] := hx.1 _ (List.getElem_mem _)
          conv_rhs => unfold interp
          rw [if_neg (not_le.2 hlt), if_neg]
          rw [not_lt]
          rcases List.mem_cons.1 (List.getElem_mem hi') with h | h
          · rw [h]
          · exact ((List.pairwise_cons.1 hx.2).1 _ h).le

/-- Instance of the hypotheses. -/
example : (∀ e ∈ newError 1 true true 1 [0, 1, 3] [2, 3, 2] [1 / 2, 2], (2 : ℝ) ≤ e) ∧
    ([2, 3, 2] : List ℝ)[1]? = some (interp 1 [0, 1, 3] [2, 3, 2]) :=
  ⟨(c42_uncertainties 1 true true 1 (by norm_num) [0, 1, 3] [2, 3, 2] _ (by simp [List.pairwise_cons]) rfl (by simp) 2
      (by norm_num) (by intro e he; simp at he; rcases he with h | h | h <;> rw [h]; norm_num)).2,
    c42_uncertainty_at_grid [0, 1, 3] [2, 3, 2] (by simp [List.pairwise_cons]) rfl 1 (by simp)⟩

end Verif.Pdf
