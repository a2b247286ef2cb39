import Verif.Ripples.Model
import Mathlib.Analysis.SpecialFunctions.Complex.CircleAddChar
import Mathlib.Analysis.Real.Pi.Bounds
import Mathlib.Algebra.Order.BigOperators.Group.Finset
import Mathlib.Tactic.LinearCombination
import Mathlib.Tactic.FieldSimp

/-!
# C83: removing high frequencies
-/

namespace Verif.Ripples

open Verif.Py Verif.Pdf Finset

/-! ### Specification -/

/-- Component `k` of a sequence of length `P` with spacing `delta` is kept: its frequency, reckoned as `2 pi k / ((P-1) delta)`
(`k` counted from the nearer end), is below qmax. -/
def Keep (qmax : ℝ) (P : ℕ) (delta : ℝ) (k : ℕ) : Prop :=
  ((min k (P - k) : ℕ) : ℝ) * (2 * Real.pi / (((P : ℝ) - 1) * delta)) < qmax

open Classical in
/-- The kernel: the average over all components of the cosines of the kept ones. -/
noncomputable def kernel (qmax : ℝ) (P : ℕ) (delta : ℝ) (m : ℤ) : ℝ :=
  (∑ k ∈ range P with Keep qmax P delta k, Real.cos (2 * Real.pi * k * m / P)) / P

/-- `P` is the length with padding: the power of two that holds `n` values, but not twice as many. -/
def Padded (n P : ℕ) : Prop := (∃ e, P = 2 ^ e) ∧ n ≤ P ∧ P < 2 * n

/-! ### Roots of unity -/

theorem root_add (P : ℕ) (a b : ℤ) : root P (a + b) = root P a * root P b := by
  unfold root
  rw [← Complex.exp_add]
  congr 1
  push_cast
  ring

theorem root_zero (P : ℕ) : root P 0 = 1 := by simp [root]

theorem root_re (P : ℕ) (m : ℤ) : (root P m).re = Real.cos (2 * Real.pi * m / P) := by
  unfold root
  have : (2 * Real.pi * Complex.I * m / P : ℂ) = ((2 * Real.pi * m / P : ℝ) : ℂ) * Complex.I := by
    push_cast; ring
  rw [this, Complex.exp_ofReal_mul_I_re]

theorem root_conj (P : ℕ) (m : ℤ) : (starRingEnd ℂ) (root P m) = root P (-m) := by
  unfold root
  rw [← Complex.exp_conj]
  congr 1
  have h2 : (starRingEnd ℂ) 2 = 2 := map_ofNat _ 2
  simp [map_div₀, h2]

theorem root_pow (P : ℕ) (k : ℕ) (m : ℤ) : root P ((k : ℤ) * m) = root P m ^ k := by
  unfold root
  rw [← Complex.exp_nat_mul]
  congr 1
  push_cast
  ring

theorem root_mul_self (P : ℕ) (hP : P ≠ 0) (m : ℤ) : root P ((P : ℤ) * m) = 1 := by
  unfold root
  have : (2 * Real.pi * Complex.I * ((P : ℤ) * m : ℤ) / P : ℂ) = m * (2 * Real.pi * Complex.I) := by
    have : (P : ℂ) ≠ 0 := by exact_mod_cast hP
    push_cast; field_simp
  rw [this, Complex.exp_int_mul_two_pi_mul_I]

theorem root_eq_one (P : ℕ) (hP : P ≠ 0) (m : ℤ) (h : root P m = 1) : (P : ℤ) ∣ m := by
  unfold root at h
  rw [Complex.exp_eq_one_iff] at h
  obtain ⟨n, hn⟩ := h
  refine ⟨n, ?_⟩
  have h1 : (P : ℂ) ≠ 0 := by exact_mod_cast hP
  have h2 : (2 * Real.pi * Complex.I : ℂ) ≠ 0 := Complex.two_pi_I_ne_zero
  rw [div_eq_iff h1] at hn
  have : (m : ℂ) = P * n := by
    apply mul_left_cancel₀ h2
    rw [hn]; ring
  exact_mod_cast this

/-- Orthogonality. -/
theorem root_sum (P : ℕ) (hP : P ≠ 0) (m : ℤ) :
    ∑ k ∈ range P, root P ((k : ℤ) * m) = if (P : ℤ) ∣ m then (P : ℂ) else 0 := by
  simp only [root_pow]
  split
  · rename_i h
    obtain ⟨n, rfl⟩ := h
    simp [root_mul_self P hP]
  · rename_i h
    have h1 : root P m ≠ 1 := fun h' => h (root_eq_one P hP m h')
    rw [geom_sum_eq h1]
    have : root P m ^ P = 1 := by rw [← root_pow, root_mul_self P hP]
    rw [this]; simp

theorem dvd_small {P j k : ℕ} (hj : j < P) (hk : k < P) : (P : ℤ) ∣ (j : ℤ) - k ↔ j = k := by
  constructor
  · intro h
    have := Int.eq_zero_of_abs_lt_dvd h (by rw [abs_lt]; omega)
    omega
  · rintro rfl; simp

/-- Parseval. -/
theorem parseval (P : ℕ) (hP : P ≠ 0) (c : ℕ → ℂ) :
    ∑ n ∈ range P, Complex.normSq (∑ k ∈ range P, c k * root P ((k : ℤ) * n)) = P * ∑ k ∈ range P, Complex.normSq (c k) := by
  have h : ∀ n : ℕ, ((Complex.normSq (∑ k ∈ range P, c k * root P ((k : ℤ) * n)) : ℝ) : ℂ) =
      ∑ k ∈ range P, ∑ l ∈ range P, c k * (starRingEnd ℂ) (c l) * root P ((n : ℤ) * ((k : ℤ) - l)) := by
    intro n
    rw [← Complex.mul_conj, map_sum, sum_mul_sum]
    refine sum_congr rfl fun k _ => sum_congr rfl fun l _ => ?_
    rw [map_mul, root_conj, show ((n : ℤ) * ((k : ℤ) - l)) = (k : ℤ) * n + -((l : ℤ) * n) by ring, root_add]
    ring
  have : (((∑ n ∈ range P, Complex.normSq (∑ k ∈ range P, c k * root P ((k : ℤ) * n))) : ℝ) : ℂ) =
      ((P * ∑ k ∈ range P, Complex.normSq (c k) : ℝ) : ℂ) := by
    rw [Complex.ofReal_sum]
    simp only [h]
    rw [sum_comm]
    push_cast
    rw [mul_sum]
    refine sum_congr rfl fun k hk => ?_
    rw [sum_comm]
    rw [sum_eq_single k]
    · rw [← mul_sum, root_sum P hP]
      simp only [sub_self, dvd_zero, if_true]
      rw [← Complex.mul_conj]; ring
    · intro l hl hne
      rw [← mul_sum, root_sum P hP, if_neg, mul_zero]
      rw [dvd_small (mem_range.1 hk) (mem_range.1 hl)]
      exact fun h => hne h.symm
    · intro h; exact absurd hk h
  exact_mod_cast this

/-! ### What is kept -/

theorem padlen_padded {n : ℕ} (hn : 1 ≤ n) : Padded n (padlen n) := by
  have e : padlen n = 2 ^ Nat.clog 2 n := by
    unfold padlen
    rw [show ((2 : ℝ)) = ((2 : ℕ) : ℝ) by norm_num, Real.natCeil_logb_natCast]
  refine ⟨⟨_, e⟩, ?_, ?_⟩
  · rw [e]; exact Nat.le_pow_clog (by norm_num) n
  · rw [e]
    by_cases h1 : n = 1
    · subst h1; simp
    · have := Nat.pow_pred_clog_lt_self (b := 2) (by norm_num) (x := n) (by omega)
      have hc : 0 < Nat.clog 2 n := Nat.clog_pos (by norm_num) (by omega)
      obtain ⟨c, hc'⟩ : ∃ c, Nat.clog 2 n = c + 1 := ⟨_, (Nat.succ_pred_eq_of_pos hc).symm⟩
      rw [hc'] at this ⊢
      simp only [Nat.pred_succ] at this
      rw [pow_succ]
      omega

theorem padded_unique {n P : ℕ} (hn : 1 ≤ n) (h : Padded n P) : P = padlen n := by
  obtain ⟨⟨a, ha⟩, h1, h2⟩ := h
  obtain ⟨⟨b, hb⟩, h3, h4⟩ := padlen_padded hn
  rw [hb]; rw [hb] at h3 h4
  subst ha
  have hab : a = b := by
    rcases lt_trichotomy a b with h | h | h
    · have : 2 ^ (a + 1) ≤ 2 ^ b := Nat.pow_le_pow_right (by norm_num) h
      rw [pow_succ] at this; omega
    · exact h
    · have : 2 ^ (b + 1) ≤ 2 ^ a := Nat.pow_le_pow_right (by norm_num) h
      rw [pow_succ] at this; omega
  rw [hab]

/-- The slice removes exactly the components that are not kept. -/
theorem cut_iff {q d : ℝ} {P k : ℕ} (hq : 0 < q) (hd : 0 < d) (hP : 2 ≤ P) (hk : k < P) :
    (clip P (lowidx q P d) ≤ k ∧ k < clip P ((P : ℤ) + 1 - lowidx q P d)) ↔ ¬ Keep q P d k := by
  have hp : (0 : ℝ) < (P : ℝ) - 1 := by
    have : (2 : ℝ) ≤ P := by exact_mod_cast hP
    linarith
  have hdq : 0 < dq P d := div_pos (by positivity) (mul_pos hp hd)
  have hkeep : Keep q P d k ↔ ((min k (P - k) : ℕ) : ℤ) < lowidx q P d := by
    unfold Keep lowidx
    rw [Int.lt_ceil, lt_div_iff₀ hdq]
    rfl
  have hlow : 0 < lowidx q P d := by
    unfold lowidx
    rw [Int.ceil_pos]
    exact div_pos hq hdq
  rw [hkeep]
  generalize lowidx q P d = L at *
  unfold clip
  split <;> split <;> omega

theorem getD_fft {P k : ℕ} (s : List ℝ) (hk : k < P) :
    (fft P s).getD k 0 = ∑ j ∈ range s.length, ((s.getD j 0 : ℝ) : ℂ) * root P (-((j : ℤ) * k)) := by
  unfold fft
  rw [List.getD_eq_getElem?_getD, List.getElem?_map, List.getElem?_range hk]
  rfl

theorem getD_zero {l : List ℂ} {lo hi : ℤ} {k : ℕ} :
    (zeroSlice l lo hi).getD k 0 = if clip l.length lo ≤ k ∧ k < clip l.length hi then 0 else l.getD k 0 := by
  unfold zeroSlice
  rw [List.getD_eq_getElem?_getD, List.getElem?_mapIdx, List.getD_eq_getElem?_getD]
  cases l[k]? <;> simp

open Classical in
/-- The spectrum after the cut. -/
noncomputable def spec (q d : ℝ) (P : ℕ) (s : List ℝ) (k : ℕ) : ℂ :=
  if Keep q P d k then ∑ j ∈ range s.length, ((s.getD j 0 : ℝ) : ℂ) * root P (-((j : ℤ) * k)) else 0

/-- `cut_freq` in terms of the spectrum. -/
theorem cutFreq_eq {q d : ℝ} {s : List ℝ} (hq : 0 < q) (hd : 0 < d) (hs : 2 ≤ s.length) {P : ℕ} (hP : Padded s.length P) :
    ∃ out, cutFreq q s d = .ok out ∧ out.length = s.length ∧ ∀ n : ℕ, n < s.length →
      out[n]? = some ((∑ k ∈ range P, spec q d P s k * root P ((k : ℤ) * n)) / P).re := by
  have hP' := padded_unique (by omega) hP
  have hne : s ≠ [] := by intro h; rw [h] at hs; simp at hs
  have h2 : 2 ≤ P := le_trans hs hP.2.1
  unfold cutFreq
  rw [if_neg hne]
  simp only [← hP']
  have hlen : (zeroSlice (fft P s) (lowidx q P d) (P + 1 - lowidx q P d)).length = P := by simp [zeroSlice, fft]
  have hflen : (fft P s).length = P := by simp [fft]
  refine ⟨_, rfl, ?_, ?_⟩
  · simp only [List.length_map, List.length_take]
    unfold ifft
    rw [List.length_map, List.length_range, hlen]
    exact min_eq_left hP.2.1
  · intro n hn
    rw [List.getElem?_map, List.getElem?_take_of_lt hn]
    unfold ifft
    rw [List.getElem?_map, hlen, List.getElem?_range (lt_of_lt_of_le hn hP.2.1)]
    simp only [Option.map_some, Option.some.injEq]
    congr 2
    refine sum_congr rfl fun k hk => ?_
    have hk' := mem_range.1 hk
    congr 1
    rw [getD_zero, hflen, getD_fft s hk']
    unfold spec
    by_cases h : Keep q P d k
    · rw [if_pos h, if_neg]
      rw [cut_iff hq hd h2 hk']
      exact not_not.2 h
    · rw [if_neg h, if_pos]
      rw [cut_iff hq hd h2 hk']
      exact h

/-- **C83.** `cut_freq` returns, for a sequence of at least two values, a sequence of the same length: the circular
convolution, with zeros appended up to the next power of two, with the kernel of the frequencies below qmax. -/
theorem c83_kernel (q d : ℝ) (s : List ℝ) (hq : 0 < q) (hd : 0 < d) (hs : 2 ≤ s.length) (P : ℕ) (hP : Padded s.length P) :
    ∃ out, cutFreq q s d = .ok out ∧ out.length = s.length ∧ ∀ n : ℕ, n < s.length →
      out[n]? = some (∑ j ∈ range s.length, s.getD j 0 * kernel q P d ((n : ℤ) - j)) := by
  obtain ⟨out, h1, h2, h3⟩ := cutFreq_eq hq hd hs hP
  refine ⟨out, h1, h2, fun n hn => ?_⟩
  rw [h3 n hn]
  congr 1
  classical
  have e : (∑ k ∈ range P, spec q d P s k * root P ((k : ℤ) * n)) =
      ∑ j ∈ range s.length, ((s.getD j 0 : ℝ) : ℂ) * ∑ k ∈ range P with Keep q P d k, root P ((k : ℤ) * ((n : ℤ) - j)) := by
    simp only [mul_sum]
    rw [sum_comm, sum_filter]
    refine sum_congr rfl fun k _ => ?_
    unfold spec
    split
    · rw [sum_mul]
      refine sum_congr rfl fun j _ => ?_
      rw [show (k : ℤ) * ((n : ℤ) - j) = -((j : ℤ) * k) + (k : ℤ) * n by ring, root_add]
      ring
    · simp
  rw [e]
  have hdiv : ∀ z : ℂ, (z / (P : ℂ)).re = z.re / P := by
    intro z
    rw [show ((P : ℂ)) = ((P : ℝ) : ℂ) by push_cast; rfl, Complex.div_ofReal_re]
  rw [hdiv, Complex.re_sum, sum_div]
  refine sum_congr rfl fun j _ => ?_
  rw [Complex.re_ofReal_mul, Complex.re_sum]
  unfold kernel
  rw [mul_div_assoc]
  congr 2
  refine sum_congr rfl fun k _ => ?_
  rw [root_re]
  push_cast
  congr 1
  ring

/-- **C83.** `cut_freq` is linear: the ripples of a sum are the sum of the ripples. -/
theorem c83_linear (q d a b : ℝ) (s t : List ℝ) (hq : 0 < q) (hd : 0 < d) (hs : 2 ≤ s.length) (hl : t.length = s.length) :
    ∃ u v w, cutFreq q s d = .ok u ∧ cutFreq q t d = .ok v ∧
      cutFreq q (List.zipWith (fun x y => a * x + b * y) s t) d = .ok w ∧
      w = List.zipWith (fun x y => a * x + b * y) u v := by
  have hP := padlen_padded (n := s.length) (by omega)
  have hz : (List.zipWith (fun x y => a * x + b * y) s t).length = s.length := by simp [hl]
  obtain ⟨u, u1, u2, u3⟩ := c83_kernel q d s hq hd hs _ hP
  obtain ⟨v, v1, v2, v3⟩ := c83_kernel q d t hq hd (by omega) (padlen s.length) (by rw [hl]; exact hP)
  obtain ⟨w, w1, w2, w3⟩ := c83_kernel q d (List.zipWith (fun x y => a * x + b * y) s t) hq hd (by omega) (padlen s.length)
    (by rw [hz]; exact hP)
  refine ⟨u, v, w, u1, v1, w1, ?_⟩
  apply List.ext_getElem?
  intro n
  by_cases hn : n < s.length
  · rw [w3 n (by omega), List.getElem?_zipWith, u3 n hn, v3 n (by omega)]
    simp only [Option.some.injEq]
    rw [hz, hl, mul_sum, mul_sum, ← sum_add_distrib]
    refine sum_congr rfl fun j hj => ?_
    have hj' := mem_range.1 hj
    have e : (List.zipWith (fun x y => a * x + b * y) s t).getD j 0 = a * s.getD j 0 + b * t.getD j 0 := by
      rw [List.getD_eq_getElem?_getD, List.getElem?_zipWith, List.getD_eq_getElem?_getD, List.getD_eq_getElem?_getD,
        List.getElem?_eq_getElem hj', List.getElem?_eq_getElem (show j < t.length by omega)]
      rfl
    rw [e]; ring
  · rw [List.getElem?_eq_none (by omega), List.getElem?_eq_none (by simp; omega)]

theorem sum_range_getD (s : List ℝ) (f : ℝ → ℝ) : ∑ j ∈ range s.length, f (s.getD j 0) = (s.map f).sum := by
  induction s with
  | nil => simp
  | cons a s ih =>
    rw [List.length_cons, sum_range_succ']
    simp only [List.getD_cons_succ, List.getD_cons_zero, List.map_cons, List.sum_cons]
    rw [ih]; ring

/-- **C83.** `cut_freq` does not increase the sum of squares. -/
theorem c83_energy (q d : ℝ) (s out : List ℝ) (hq : 0 < q) (hd : 0 < d) (hs : 2 ≤ s.length)
    (h : cutFreq q s d = .ok out) : (out.map (· ^ 2)).sum ≤ (s.map (· ^ 2)).sum := by
  classical
  have hP := padlen_padded (n := s.length) (by omega)
  generalize padlen s.length = P at hP
  obtain ⟨out', h1, h2, h3⟩ := cutFreq_eq hq hd hs hP
  rw [h, Except.ok.injEq] at h1
  subst h1
  have hP0 : P ≠ 0 := by have := hP.2.1; omega
  have hPr : (0 : ℝ) < P := by exact_mod_cast Nat.pos_of_ne_zero hP0
  rw [← sum_range_getD out, ← sum_range_getD s, h2]
  -- the output by the spectrum
  have e1 : ∑ n ∈ range s.length, (out.getD n 0) ^ 2 ≤
      ∑ n ∈ range P, Complex.normSq ((∑ k ∈ range P, spec q d P s k * root P ((k : ℤ) * n)) / P) := by
    refine le_trans (sum_le_sum (f := fun n : ℕ => (out.getD n 0) ^ 2) (g := fun n : ℕ =>
      Complex.normSq ((∑ k ∈ range P, spec q d P s k * root P ((k : ℤ) * n)) / P)) fun n hn => ?_)
      (sum_le_sum_of_subset_of_nonneg (range_subset_range.2 hP.2.1) fun _ _ _ => Complex.normSq_nonneg _)
    rw [List.getD_eq_getElem?_getD, h3 n (mem_range.1 hn), Option.getD_some, Complex.normSq_apply]
    nlinarith [sq_nonneg ((∑ k ∈ range P, spec q d P s k * root P ((k : ℤ) * n)) / P : ℂ).im]
  have e2 : ∑ n ∈ range P, Complex.normSq ((∑ k ∈ range P, spec q d P s k * root P ((k : ℤ) * n)) / P) =
      (∑ k ∈ range P, Complex.normSq (spec q d P s k)) / P := by
    simp only [Complex.normSq_div, Complex.normSq_natCast]
    rw [← sum_div, parseval P hP0]
    field_simp
  have e3 : ∑ k ∈ range P, Complex.normSq (spec q d P s k) ≤
      ∑ k ∈ range P, Complex.normSq (∑ j ∈ range P, ((s.getD j 0 : ℝ) : ℂ) * root P ((j : ℤ) * k)) := by
    refine sum_le_sum fun k _ => ?_
    unfold spec
    split
    · rw [← Complex.normSq_conj, map_sum]
      apply le_of_eq
      congr 1
      rw [← sum_subset (range_subset_range.2 hP.2.1) (f := fun j : ℕ => ((s.getD j 0 : ℝ) : ℂ) * root P ((j : ℤ) * k))]
      · refine sum_congr rfl fun j _ => ?_
        rw [map_mul, root_conj, Complex.conj_ofReal, neg_neg]
      · intro j _ hj
        have : s.length ≤ j := by simpa using hj
        simp only [List.getD_eq_getElem?_getD, List.getElem?_eq_none this]
        simp
    · simp [Complex.normSq_nonneg]
  have e4 : ∑ k ∈ range P, Complex.normSq (∑ j ∈ range P, ((s.getD j 0 : ℝ) : ℂ) * root P ((j : ℤ) * k)) =
      P * ∑ j ∈ range s.length, (s.getD j 0) ^ 2 := by
    rw [parseval P hP0]
    congr 1
    rw [← sum_subset (range_subset_range.2 hP.2.1) (f := fun j : ℕ => Complex.normSq ((s.getD j 0 : ℝ) : ℂ))]
    · refine sum_congr rfl fun j _ => ?_
      rw [Complex.normSq_ofReal]; ring
    · intro j _ hj
      have : s.length ≤ j := by simpa using hj
      simp only [List.getD_eq_getElem?_getD, List.getElem?_eq_none this]
      simp
  calc _ ≤ _ := e1
    _ = _ := e2
    _ ≤ (P * ∑ j ∈ range s.length, (s.getD j 0) ^ 2) / P := by
      rw [← e4]
      exact div_le_div_of_nonneg_right e3 hPr.le
    _ = _ := by field_simp

/-- The kernel that keeps everything. -/
theorem kernel_all {q d : ℝ} {P : ℕ} (hP : P ≠ 0) (h : ∀ k, k < P → Keep q P d k) {m : ℤ} :
    kernel q P d m = if (P : ℤ) ∣ m then 1 else 0 := by
  classical
  unfold kernel
  rw [filter_true_of_mem (fun k hk => h k (mem_range.1 hk))]
  have hs := congrArg Complex.re (root_sum P hP m)
  rw [Complex.re_sum] at hs
  have e : ∑ k ∈ range P, Real.cos (2 * Real.pi * k * m / P) = if (P : ℤ) ∣ m then (P : ℝ) else 0 := by
    rw [show (if (P : ℤ) ∣ m then (P : ℝ) else 0) = (if (P : ℤ) ∣ m then (P : ℂ) else 0 : ℂ).re by split <;> simp, ← hs]
    refine sum_congr rfl fun k _ => ?_
    rw [root_re]
    push_cast
    congr 1
    ring
  rw [e]
  have : (P : ℝ) ≠ 0 := by exact_mod_cast hP
  split
  · field_simp
  · simp

/-- **C83.** A qmax above every frequency of the grid removes nothing. -/
theorem c83_identity (q d : ℝ) (s : List ℝ) (hd : 0 < d) (hs : 2 ≤ s.length) (P : ℕ)
    (hP : Padded s.length P) (h : Real.pi * P < q * (((P : ℝ) - 1) * d)) : cutFreq q s d = .ok s := by
  have h2 : 2 ≤ P := le_trans hs hP.2.1
  have hp : (0 : ℝ) < ((P : ℝ) - 1) * d := by
    have : (2 : ℝ) ≤ P := by exact_mod_cast h2
    exact mul_pos (by linarith) hd
  have hq : 0 < q := by
    have : 0 < Real.pi * P := mul_pos Real.pi_pos (by exact_mod_cast (by omega : 0 < P))
    by_contra hc
    have := mul_nonpos_of_nonpos_of_nonneg (not_lt.1 hc) hp.le
    linarith
  have hk : ∀ k, k < P → Keep q P d k := by
    intro k hk
    unfold Keep
    rw [mul_div_assoc', div_lt_iff₀ hp]
    refine lt_of_le_of_lt ?_ h
    have : ((min k (P - k) : ℕ) : ℝ) * 2 ≤ P := by
      have : min k (P - k) * 2 ≤ P := by omega
      exact_mod_cast this
    nlinarith [Real.pi_pos]
  obtain ⟨out, h1, h3, h4⟩ := c83_kernel q d s hq hd hs P hP
  rw [h1]
  congr 1
  apply List.ext_getElem?
  intro n
  by_cases hn : n < s.length
  · rw [h4 n hn]
    rw [sum_eq_single n]
    · rw [kernel_all (by omega) hk, if_pos (by simp), mul_one, List.getD_eq_getElem?_getD, List.getElem?_eq_getElem hn]
      rfl
    · intro j hj hne
      rw [kernel_all (by omega) hk, if_neg, mul_zero]
      rw [dvd_small (lt_of_lt_of_le hn hP.2.1) (lt_of_lt_of_le (mem_range.1 hj) hP.2.1)]
      exact fun h => hne h.symm
    · intro h; exact absurd (mem_range.2 hn) h
  · rw [List.getElem?_eq_none (by omega), List.getElem?_eq_none (by omega)]

/-- The kernel that keeps the mean only. -/
theorem kernel_mean {q d : ℝ} {P : ℕ} (hP : 2 ≤ P) (hq : 0 < q) (hd : 0 < d)
    (h : q * (((P : ℝ) - 1) * d) ≤ 2 * Real.pi) {m : ℤ} : kernel q P d m = 1 / P := by
  classical
  have hp : (0 : ℝ) < ((P : ℝ) - 1) * d := by
    have : (2 : ℝ) ≤ P := by exact_mod_cast hP
    exact mul_pos (by linarith) hd
  unfold kernel
  have : (range P).filter (fun k => Keep q P d k) = {0} := by
    ext k
    simp only [mem_filter, mem_range, mem_singleton]
    constructor
    · rintro ⟨hk, hK⟩
      by_contra h0
      unfold Keep at hK
      rw [mul_div_assoc', div_lt_iff₀ hp] at hK
      have : (1 : ℝ) ≤ ((min k (P - k) : ℕ) : ℝ) := by
        have : 1 ≤ min k (P - k) := by omega
        exact_mod_cast this
      nlinarith [Real.pi_pos]
    · rintro rfl
      refine ⟨by omega, ?_⟩
      unfold Keep
      simpa using hq
  rw [this]
  simp

theorem keep_symm {q d : ℝ} {P k : ℕ} (hk : k < P) (h0 : 0 < k) : Keep q P d (P - k) ↔ Keep q P d k := by
  unfold Keep
  rw [show min (P - k) (P - (P - k)) = min k (P - k) by omega]

open Classical in
/-- The kernel without taking real parts. -/
theorem kernel_complex {q d : ℝ} {P : ℕ} (hP : P ≠ 0) (m : ℤ) :
    ((kernel q P d m : ℝ) : ℂ) = (∑ k ∈ range P with Keep q P d k, root P ((k : ℤ) * m)) / P := by
  have hc : (starRingEnd ℂ) (∑ k ∈ range P with Keep q P d k, root P ((k : ℤ) * m)) =
      ∑ k ∈ range P with Keep q P d k, root P ((k : ℤ) * m) := by
    rw [map_sum]
    simp only [root_conj]
    refine sum_nbij' (fun k => if k = 0 then 0 else P - k) (fun k => if k = 0 then 0 else P - k) ?_ ?_ ?_ ?_ ?_
    · intro k hk
      simp only [mem_filter, mem_range] at hk ⊢
      split
      · rename_i h0; rw [h0] at hk; exact hk
      · exact ⟨by omega, (keep_symm hk.1 (by omega)).2 hk.2⟩
    · intro k hk
      simp only [mem_filter, mem_range] at hk ⊢
      split
      · rename_i h0; rw [h0] at hk; exact hk
      · exact ⟨by omega, (keep_symm hk.1 (by omega)).2 hk.2⟩
    · intro k hk
      simp only [mem_filter, mem_range] at hk
      split
      · rename_i h0; simp [h0]
      · rename_i h0; split <;> omega
    · intro k hk
      simp only [mem_filter, mem_range] at hk
      split
      · rename_i h0; simp [h0]
      · rename_i h0; split <;> omega
    · intro k hk
      simp only [mem_filter, mem_range] at hk
      split
      · rename_i h0; subst h0; simp
      · rw [show (((P - k : ℕ) : ℤ) * m) = (P : ℤ) * m + -((k : ℤ) * m) by rw [Nat.cast_sub hk.1.le]; ring, root_add,
          root_mul_self P hP, one_mul]
  have hr := Complex.conj_eq_iff_re.1 hc
  rw [← hr, Complex.re_sum]
  unfold kernel
  push_cast
  congr 1
  refine sum_congr rfl fun k _ => ?_
  rw [root_re]
  push_cast
  congr 1
  ring

/-- The kernel convolved with itself. -/
theorem kernel_conv {q d : ℝ} {P : ℕ} (hP : P ≠ 0) (a b : ℤ) :
    ∑ j ∈ range P, kernel q P d (a - j) * kernel q P d (j - b) = kernel q P d (a - b) := by
  classical
  have hPc : (P : ℂ) ≠ 0 := by exact_mod_cast hP
  have : ((∑ j ∈ range P, kernel q P d (a - j) * kernel q P d (j - b) : ℝ) : ℂ) = ((kernel q P d (a - b) : ℝ) : ℂ) := by
    rw [Complex.ofReal_sum]
    simp only [Complex.ofReal_mul, kernel_complex hP]
    have e : ∀ j : ℕ, (∑ k ∈ range P with Keep q P d k, root P ((k : ℤ) * (a - j))) / (P : ℂ) *
        ((∑ l ∈ range P with Keep q P d l, root P ((l : ℤ) * (j - b))) / P) =
        ∑ k ∈ range P with Keep q P d k, ∑ l ∈ range P with Keep q P d l,
          root P ((k : ℤ) * a - l * b) * root P ((j : ℤ) * ((l : ℤ) - k)) / (P * P) := by
      intro j
      rw [div_mul_div_comm, sum_mul_sum, sum_div]
      refine sum_congr rfl fun k _ => ?_
      rw [sum_div]
      refine sum_congr rfl fun l _ => ?_
      rw [← root_add, ← root_add]
      congr 2
      ring
    simp only [e]
    rw [sum_comm, sum_div]
    refine sum_congr rfl fun k hk => ?_
    have hk' := mem_range.1 (mem_filter.1 hk).1
    rw [sum_comm, sum_eq_single k]
    · rw [← sum_div, ← mul_sum, root_sum P hP, if_pos (by simp), show (k : ℤ) * a - k * b = k * (a - b) by ring]
      field_simp
    · intro l hl hne
      rw [← sum_div, ← mul_sum, root_sum P hP, if_neg, mul_zero, zero_div]
      rw [dvd_small (mem_range.1 (mem_filter.1 hl).1) hk']
      exact hne
    · intro h; exact absurd hk h
  exact_mod_cast this

/-- **C83.** When no padding is needed, cutting a second time changes nothing. -/
theorem c83_projection (q d : ℝ) (s out : List ℝ) (hq : 0 < q) (hd : 0 < d) (e : ℕ) (hs : s.length = 2 ^ (e + 1))
    (h : cutFreq q s d = .ok out) : cutFreq q out d = .ok out := by
  have h2 : 2 ≤ s.length := by
    rw [hs, pow_succ]
    have : 0 < 2 ^ e := by positivity
    omega
  have hP : Padded s.length s.length := ⟨⟨e + 1, hs⟩, le_rfl, by omega⟩
  obtain ⟨o1, a1, a2, a3⟩ := c83_kernel q d s hq hd h2 _ hP
  rw [h, Except.ok.injEq] at a1
  subst a1
  obtain ⟨o2, b1, b2, b3⟩ := c83_kernel q d out hq hd (by omega) s.length (by rw [a2]; exact hP)
  rw [b1]
  congr 1
  apply List.ext_getElem?
  intro n
  by_cases hn : n < s.length
  · rw [b3 n (by omega), a3 n hn]
    congr 1
    rw [a2]
    have : ∀ j ∈ range s.length, out.getD j 0 * kernel q s.length d ((n : ℤ) - j) =
        ∑ i ∈ range s.length, s.getD i 0 * (kernel q s.length d ((n : ℤ) - j) * kernel q s.length d ((j : ℤ) - i)) := by
      intro j hj
      rw [List.getD_eq_getElem?_getD, a3 j (mem_range.1 hj), Option.getD_some, sum_mul]
      refine sum_congr rfl fun i _ => ?_
      ring
    rw [sum_congr rfl this, sum_comm]
    refine sum_congr rfl fun i _ => ?_
    rw [← mul_sum, kernel_conv (by omega)]
  · rw [List.getElem?_eq_none (by omega), List.getElem?_eq_none (by omega)]

/-- **C83, finding.** The frequencies are reckoned too high by the factor `P/(P-1)`: a component below qmax can be
removed.  Here the cosine of frequency 1/4, sampled at four points with spacing 2 pi, is removed by a cut at 0.3. -/
theorem c83_cutoff : (∀ j : ℕ, j < 4 → [(1 : ℝ), 0, -1, 0].getD j 0 = Real.cos (1 / 4 * (j * (2 * Real.pi)))) ∧
    cutFreq (3 / 10) [1, 0, -1, 0] (2 * Real.pi) = .ok [0, 0, 0, 0] := by
  constructor
  · intro j hj
    have hc : ∀ k : ℕ, (1 / 4 * ((k : ℝ) * (2 * Real.pi))) = k * (Real.pi / 2) := by intro k; ring
    rw [hc]
    interval_cases j
    · simp
    · simp
    · simp [show (2 : ℝ) * (Real.pi / 2) = Real.pi by ring]
    · have : Real.cos (3 * (Real.pi / 2)) = 0 := by
        rw [show (3 : ℝ) * (Real.pi / 2) = Real.pi / 2 + Real.pi by ring, Real.cos_add_pi]; simp
      simp [this]
  · have hP : Padded ([1, 0, -1, 0] : List ℝ).length 4 := ⟨⟨2, rfl⟩, by simp, by simp⟩
    have hpi := Real.pi_pos
    obtain ⟨out, h1, h2, h3⟩ := c83_kernel (3 / 10) (2 * Real.pi) [1, 0, -1, 0] (by norm_num) (by positivity) (by simp) 4 hP
    rw [h1]
    congr 1
    apply List.ext_getElem?
    intro n
    by_cases hn : n < 4
    · rw [h3 n (by simpa using hn)]
      have hk : ∀ m, kernel (3 / 10) 4 (2 * Real.pi) m = 1 / (4 : ℕ) := fun m =>
        kernel_mean (by norm_num) (by norm_num) (by positivity) (by push_cast; nlinarith)
      simp only [hk]
      have : (∑ j ∈ range ([1, 0, -1, 0] : List ℝ).length, ([1, 0, -1, 0] : List ℝ).getD j 0 * (1 / ((4 : ℕ) : ℝ))) = 0 := by
        simp [sum_range_succ]
      rw [this]
      interval_cases n <;> rfl
    · rw [List.getElem?_eq_none (by rw [h2]; simpa using hn), List.getElem?_eq_none (by simpa using hn)]

/-- Instance of C83: three values, padded to four; the cut keeps the mean of the padded sequence. -/
example : cutFreq 1 [4, 0, 0] 1 = .ok [1, 1, 1] := by
  have hP : Padded ([4, 0, 0] : List ℝ).length 4 := ⟨⟨2, rfl⟩, by simp, by simp⟩
  obtain ⟨out, h1, h2, h3⟩ := c83_kernel 1 1 [4, 0, 0] (by norm_num) (by norm_num) (by simp) 4 hP
  rw [h1]
  congr 1
  apply List.ext_getElem?
  intro n
  by_cases hn : n < 3
  · rw [h3 n (by simpa using hn)]
    have hk : ∀ m, kernel 1 4 1 m = 1 / (4 : ℕ) := fun m =>
      kernel_mean (by norm_num) (by norm_num) (by norm_num) (by push_cast; nlinarith [Real.pi_gt_three])
    simp only [hk]
    have : (∑ j ∈ range ([4, 0, 0] : List ℝ).length, ([4, 0, 0] : List ℝ).getD j 0 * (1 / ((4 : ℕ) : ℝ))) = 1 := by
      simp [sum_range_succ]
    rw [this]
    interval_cases n <;> rfl
  · rw [List.getElem?_eq_none (by rw [h2]; simpa using hn), List.getElem?_eq_none (by simpa using hn)]

/-- Instance of `c83_identity`: qmax 5 on a grid of spacing 1. -/
example : cutFreq 5 [4, 0, 7] 1 = .ok [4, 0, 7] :=
  c83_identity 5 1 [4, 0, 7] (by norm_num) (by simp) 4 ⟨⟨2, rfl⟩, by simp, by simp⟩
    (by push_cast; nlinarith [Real.pi_lt_d2])

end Verif.Ripples
