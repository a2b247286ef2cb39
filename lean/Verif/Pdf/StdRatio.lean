import Verif.Pdf.Model
import Mathlib.Tactic.FieldSimp
import Mathlib.Tactic.Ring
import Mathlib.Tactic.Linarith
import Mathlib.Algebra.CharZero.Defs
import Mathlib.Tactic.LinearCombination

/-!
# C43: `stdratio` computes running variances in one pass
-/

namespace Verif.Pdf

open Verif.Py Finset

section

variable {K : Type} [Field K] [CharZero K]

/-- Specification: mean of `d` over the indices `a ≤ j < b`. -/
def meanOver (d : ℕ → K) (a b : ℕ) : K := (∑ j ∈ Ico a b, d j) / ((b - a : ℕ) : K)

/-- Specification: sum of squared deviations from the mean over the indices `a ≤ j < b`. -/
def sqdev (d : ℕ → K) (a b : ℕ) : K := ∑ j ∈ Ico a b, (d j - meanOver d a b) ^ 2

omit [CharZero K] in
theorem sqdev_moments (d : ℕ → K) (a b : ℕ) (h : ((b - a : ℕ) : K) ≠ 0) :
    sqdev d a b = (∑ j ∈ Ico a b, d j ^ 2) - (∑ j ∈ Ico a b, d j) ^ 2 / ((b - a : ℕ) : K) := by
  unfold sqdev
  have : ∀ j, (d j - meanOver d a b) ^ 2 = d j ^ 2 - 2 * meanOver d a b * d j + meanOver d a b ^ 2 := by
    intro j; ring
  simp only [this]
  rw [sum_add_distrib, sum_sub_distrib, ← mul_sum, sum_const, Nat.card_Ico, nsmul_eq_mul]
  unfold meanOver
  field_simp
  ring

theorem leftAt_spec (d : ℕ → K) (i : ℕ) :
    (leftAt d i).1 = i ∧ (leftAt d i).2.1 = meanOver d 0 i ∧ (leftAt d i).2.2 = sqdev d 0 i := by
  induction i with
  | zero => simp [leftAt, meanOver, sqdev]
  | succ i ih =>
    obtain ⟨h1, h2, h3⟩ := ih
    have hne : ((i + 1 : ℕ) : K) ≠ 0 := by exact_mod_cast Nat.succ_ne_zero i
    have hne' : (i : K) + 1 ≠ 0 := by exact_mod_cast Nat.succ_ne_zero i
    have hm : (leftAt d (i + 1)).2.1 = meanOver d 0 (i + 1) := by
      simp only [leftAt, h1, h2]
      unfold meanOver
      rw [sum_Ico_succ_top (Nat.zero_le i)]
      rcases Nat.eq_zero_or_pos i with rfl | hi
      · simp
      · have hi' : (i : K) ≠ 0 := by exact_mod_cast hi.ne'
        simp only [Nat.sub_zero]
        push_cast
        field_simp
        ring
    refine ⟨by simp [leftAt, h1], hm, ?_⟩
    have e : (leftAt d (i + 1)).2.2 = (leftAt d i).2.2 + (d i - (leftAt d i).2.1) * (d i - (leftAt d (i + 1)).2.1) := rfl
    rw [e, hm, h2, h3]
    rcases Nat.eq_zero_or_pos i with rfl | hi
    · simp [meanOver, sqdev]
    · have hi' : (i : K) ≠ 0 := by exact_mod_cast hi.ne'
      rw [sqdev_moments d 0 i (by simpa using hi'), sqdev_moments d 0 (i + 1) (by simpa using hne)]
      unfold meanOver
      rw [sum_Ico_succ_top (Nat.zero_le i), sum_Ico_succ_top (Nat.zero_le i)]
      simp only [Nat.sub_zero]
      push_cast
      field_simp
      ring

theorem rightAt_spec (d : ℕ → K) (i : ℕ) :
    (rightAt d i).1 = i + 2 ∧ (rightAt d i).2.1 = meanOver d (i + 2) (2 * i + 4) ∧
      (rightAt d i).2.2 = sqdev d (i + 2) (2 * i + 4) := by
  induction i with
  | zero =>
    refine ⟨rfl, ?_, ?_⟩
    · simp [rightAt, meanOver, sum_Ico_succ_top]
    · simp [rightAt, sqdev, meanOver, sum_Ico_succ_top]
  | succ i ih =>
    obtain ⟨h1, h2, h3⟩ := ih
    -- the old window, without its first point
    have a1 : ((i + 1 : ℕ) : K) ≠ 0 := by exact_mod_cast Nat.succ_ne_zero i
    have a2 : ((i + 2 : ℕ) : K) ≠ 0 := by exact_mod_cast Nat.succ_ne_zero (i + 1)
    have a3 : ((i + 3 : ℕ) : K) ≠ 0 := by exact_mod_cast Nat.succ_ne_zero (i + 2)
    have b1 : (i : K) + 1 ≠ 0 := by simpa using a1
    have b2 : (i : K) + 2 ≠ 0 := by simpa using a2
    have b3 : (i : K) + 3 ≠ 0 := by simpa using a3
    have s1 : ∀ f : ℕ → K, ∑ j ∈ Ico (i + 2) (2 * i + 4), f j = f (i + 2) + ∑ j ∈ Ico (i + 3) (2 * i + 4), f j := by
      intro f; rw [sum_eq_sum_Ico_succ_bot (by omega)]
    have s2 : ∀ f : ℕ → K, ∑ j ∈ Ico (i + 1 + 2) (2 * (i + 1) + 4), f j =
        ∑ j ∈ Ico (i + 3) (2 * i + 4), f j + f (2 * i + 4) + f (2 * i + 5) := by
      intro f
      rw [show 2 * (i + 1) + 4 = (2 * i + 5) + 1 by ring, sum_Ico_succ_top (by omega),
        sum_Ico_succ_top (by omega)]
    have c1 : 2 * i + 4 - (i + 2) = i + 2 := by omega
    have c2 : 2 * (i + 1) + 4 - (i + 1 + 2) = i + 3 := by omega
    have e2 : 2 * (i + 2) = 2 * i + 4 := by ring
    have e3 : 2 * (i + 2) + 1 = 2 * i + 5 := by ring
    have hn : (rightAt d (i + 1)).1 = i + 1 + 2 := by simp only [rightAt, rightStep, h1]; omega
    refine ⟨hn, ?_, ?_⟩
    · simp only [rightAt, rightStep, h1, h2, e2]
      unfold meanOver
      rw [s1, s2, c1, c2]
      have : i + 2 - 1 = i + 1 := by omega
      rw [this]
      simp only [show i + 1 + 2 = i + 3 from rfl]
      push_cast
      field_simp
      ring
    · simp only [rightAt, rightStep, h1, h2, h3, e2]
      rw [sqdev_moments d (i + 2) (2 * i + 4) (by rw [c1]; exact a2),
        sqdev_moments d (i + 1 + 2) (2 * (i + 1) + 4) (by rw [c2]; exact a3)]
      unfold meanOver
      rw [s1, s1, s2, s2, c1, c2]
      have : i + 2 - 1 = i + 1 := by omega
      rw [this]
      simp only [show i + 1 + 2 = i + 3 from rfl]
      generalize ∑ j ∈ Ico (i + 3) (2 * i + 4), d j = A
      generalize ∑ j ∈ Ico (i + 3) (2 * i + 4), d j ^ 2 = B
      generalize d (i + 2) = u
      generalize d (2 * i + 4) = v
      generalize d (2 * i + 5) = w
      push_cast
      field_simp
      ring

end

/-- Specification: the (population) variance of a list. -/
noncomputable def variance (l : List ℝ) : ℝ :=
  (l.map (fun v => (v - l.sum / l.length) ^ 2)).sum / l.length

theorem sum_window (f : ℝ → ℝ) (data : List ℝ) (a k : ℕ) (h : a + k ≤ data.length) :
    (((data.drop a).take k).map f).sum = ∑ j ∈ Ico a (a + k), f (data.getD j 0) := by
  induction k with
  | zero => simp
  | succ k ih =>
    rw [← add_assoc, sum_Ico_succ_top (by omega), ← ih (by omega), List.take_add_one, List.map_append, List.sum_append]
    congr 1
    rw [List.getElem?_drop, List.getElem?_eq_getElem (by omega), List.getD_eq_getElem?_getD,
      List.getElem?_eq_getElem (by omega)]
    simp

theorem variance_window (data : List ℝ) (a k : ℕ) (h : a + k ≤ data.length) (hk : 0 < k) :
    variance ((data.drop a).take k) = sqdev (fun j => data.getD j 0) a (a + k) / k := by
  have hl : ((data.drop a).take k).length = k := by rw [List.length_take, List.length_drop]; omega
  unfold variance
  rw [hl]
  have hs : ((data.drop a).take k).sum / (k : ℝ) = meanOver (fun j => data.getD j 0) a (a + k) := by
    have := sum_window id data a k h
    simp only [List.map_id, id] at this
    unfold meanOver
    rw [this, show a + k - a = k by omega]
  rw [hs, sum_window (fun v => (v - meanOver (fun j => data.getD j 0) a (a + k)) ^ 2) data a k h]
  rfl

/-- **C43.** The `i`-th element of `stdratio(data)` is the standard deviation of the first `i + 2` points divided
by that of the `i + 2` points after them, for every `i < len(data) // 2 - 1`; with fewer than four points the call
raises IndexError. -/
theorem c43_stdratio (data : List ℝ) :
    (data.length < 4 → stdratio data = .error .index) ∧
    (4 ≤ data.length → ∃ out, stdratio data = .ok out ∧ out.length = data.length / 2 - 1 ∧
      ∀ i < data.length / 2 - 1, out[i]? =
        some (Real.sqrt (variance (data.take (i + 2))) / Real.sqrt (variance ((data.drop (i + 2)).take (i + 2))))) := by
  unfold stdratio
  refine ⟨fun h => by rw [if_pos h], fun h => ?_⟩
  rw [if_neg (by omega)]
  refine ⟨_, rfl, by simp, ?_⟩
  intro i hi
  rw [List.getElem?_map, List.getElem?_range hi]
  simp only [Option.map_some, Option.some.injEq]
  rw [(leftAt_spec _ _).2.2, (rightAt_spec _ _).2.2]
  have v1 := variance_window data 0 (i + 2) (by omega) (by omega)
  have v2 := variance_window data (i + 2) (i + 2) (by omega) (by omega)
  rw [List.drop_zero, zero_add] at v1
  have e : i + 2 + (i + 2) = 2 * i + 4 := by ring
  rw [e] at v2
  have hp : (0 : ℝ) < ((i + 2 : ℕ) : ℝ) := by positivity
  have n1 : 0 ≤ sqdev (fun j => data.getD j 0) 0 (i + 2) / ((i + 2 : ℕ) : ℝ) :=
    div_nonneg (sum_nonneg (fun j _ => sq_nonneg _)) hp.le
  rw [v1, v2, ← Real.sqrt_div n1, div_div_div_cancel_right₀ hp.ne']

/-- Instance: for 0, 2, 0, 1, 0, 2 the results are 2 and the ratio of the standard deviations of 0, 2, 0 and
1, 0, 2. -/
example : ∃ out, stdratio [0, 2, 0, 1, 0, 2] = .ok out ∧ out[0]? = some 2 := by
  obtain ⟨out, h1, -, h3⟩ := (c43_stdratio [0, 2, 0, 1, 0, 2]).2 (by simp)
  refine ⟨out, h1, ?_⟩
  rw [h3 0 (by simp)]
  have a : variance [0, 2] = 1 := by unfold variance; norm_num
  have b : variance [0, 1] = 1 / 4 := by unfold variance; norm_num
  simp only [zero_add, List.take_succ_cons, List.take_zero, List.drop_succ_cons, List.drop_zero]
  rw [a, b, Real.sqrt_one, show (1 / 4 : ℝ) = (1 / 2) ^ 2 by norm_num, Real.sqrt_sq (by norm_num)]
  norm_num

end Verif.Pdf
