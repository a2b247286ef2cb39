import Verif.Pdf.QmaxModel
import Verif.Pdf.StdRatio
import Verif.Pdf.Resample
import Verif.Ripples.Cut
import Verif.Multimodel.StateProps

/-!
# C93: the qmax found in the data
-/

namespace Verif.Pdf

open Verif.Py Finset

/-! ### Specification -/

/-- The data, interpolated (Whittaker–Shannon) at the `t`-th of `2n` equally spaced points from the first to the last. -/
noncomputable def between (y : List ℝ) (t : ℕ) : ℝ :=
  ∑ j ∈ range y.length, y.getD j 0 * sinc (t * (((y.length : ℝ) - 1) / (2 * y.length - 1)) - j)

/-- Amplitude of the sine of `k` periods in the interpolated data (imaginary part of the Fourier transform). -/
noncomputable def amplitude (y : List ℝ) (k : ℕ) : ℝ :=
  -∑ t ∈ range (2 * y.length), between y t * Real.sin (2 * Real.pi * (t * k) / (2 * y.length))

/-- The values of `f` from index `a`, `len` of them. -/
def runOf (f : ℕ → ℝ) (a len : ℕ) : List ℝ := (List.range len).map (fun i => f (a + i))

/-- Standard deviation of the first `i + 2` amplitudes over that of the next `i + 2`. -/
noncomputable def spreadRatio (y : List ℝ) (i : ℕ) : ℝ :=
  Real.sqrt (variance (runOf (amplitude y) 0 (i + 2))) / Real.sqrt (variance (runOf (amplitude y) (i + 2) (i + 2)))

/-- How sharply the ratio bends downward at `j + 1`. -/
noncomputable def bend (y : List ℝ) (j : ℕ) : ℝ := 2 * spreadRatio y (j + 1) - spreadRatio y j - spreadRatio y (j + 2)

/-- `j` is the last of the places below `N` at which `f` is largest. -/
def LastMax (f : ℕ → ℝ) (N j : ℕ) : Prop := j < N ∧ (∀ i < N, f i ≤ f j) ∧ ∀ i < N, j < i → f i < f j

/-- No run of amplitudes that is divided by is constant. -/
def Spread (y : List ℝ) : Prop := ∀ i < y.length / 2 - 1, variance (runOf (amplitude y) (i + 2) (i + 2)) ≠ 0

/-! ### Lemmas -/

theorem root_im (P : ℕ) (m : ℤ) : (Ripples.root P m).im = Real.sin (2 * Real.pi * m / P) := by
  unfold Ripples.root
  have : (2 * Real.pi * Complex.I * m / P : ℂ) = ((2 * Real.pi * m / P : ℝ) : ℂ) * Complex.I := by
    push_cast; ring
  rw [this, Complex.exp_ofReal_mul_I_im]

theorem fft_im (u : List ℝ) (P k : ℕ) (hk : k < P) : ((Ripples.fft P u).map Complex.im)[k]? =
    some (-∑ t ∈ range u.length, u.getD t 0 * Real.sin (2 * Real.pi * (t * k) / P)) := by
  unfold Ripples.fft
  rw [List.map_map, List.getElem?_map, List.getElem?_range hk]
  simp only [Option.map_some, Function.comp, Option.some.injEq]
  rw [Complex.im_sum, ← sum_neg_distrib]
  apply sum_congr rfl
  intro t _
  rw [Complex.im_ofReal_mul, root_im]
  have : (2 * Real.pi * ((-((t : ℤ) * k) : ℤ) : ℝ) / P) = -(2 * Real.pi * (t * k) / P) := by push_cast; ring
  rw [this, Real.sin_neg]
  ring

theorem linspace_length (a b : ℝ) (n : ℕ) : (linspace a b n).length = n := by simp [linspace]

theorem linspace_last (a b : ℝ) (n : ℕ) (hn : 2 ≤ n) : (linspace a b n).getLastD 0 = b := by
  obtain ⟨m, rfl⟩ : ∃ m, n = m + 2 := ⟨n - 2, by omega⟩
  unfold linspace
  rw [List.range_succ]
  simp only [List.map_append, List.map_cons, List.map_nil, List.getLastD_concat]
  have : (m : ℝ) + 1 ≠ 0 := by positivity
  push_cast
  rw [show (m : ℝ) + 2 - 1 = m + 1 by ring]
  field_simp
  ring

/-- The resampled data do not depend on where the grid starts or how long it is. -/
theorem resample_between (r y : List ℝ) (a b : ℝ) (ha : r.head? = some a) (hb : r.getLast? = some b) (hab : b - a ≠ 0)
    (hl : r.length = y.length) (hn : 2 ≤ r.length) :
    resample r y (linspace a b (2 * r.length)) = .ok ((List.range (2 * y.length)).map (between y)) := by
  unfold resample
  rw [ha, hb]
  have : ∃ c cs, linspace a b (2 * r.length) = c :: cs := by
    apply List.exists_cons_of_ne_nil
    intro h
    have := congrArg List.length h
    rw [linspace_length, List.length_nil] at this
    omega
  obtain ⟨c, cs, hc⟩ := this
  rw [hc]
  simp only
  rw [if_neg (by omega), ← hc]
  congr 1
  unfold linspace
  rw [List.map_map, hl]
  apply List.map_congr_left
  intro t _
  simp only [Function.comp]
  rw [resampleLoop_eq, mul_zero, zero_add]
  unfold between
  apply sum_congr rfl
  intro k _
  congr 2
  have h2 : (2 : ℝ) ≤ y.length := by exact_mod_cast hl ▸ hn
  have h3 : (y.length : ℝ) - 1 ≠ 0 := by linarith
  have h4 : 2 * (y.length : ℝ) - 1 ≠ 0 := by linarith
  push_cast
  field_simp
  ring

theorem halfImag_eq (y : List ℝ) : halfImag ((List.range (2 * y.length)).map (between y)) =
    (List.range y.length).map (amplitude y) := by
  apply List.ext_getElem?
  intro k
  unfold halfImag
  simp only [List.length_map, List.length_range]
  rw [show 2 * y.length / 2 = y.length by omega]
  by_cases hk : k < y.length
  · rw [List.getElem?_take_of_lt hk, fft_im _ _ _ (by omega), List.getElem?_map, List.getElem?_range hk]
    simp only [Option.map_some, Option.some.injEq, List.length_map, List.length_range]
    unfold amplitude
    congr 1
    apply sum_congr rfl
    intro t ht
    have := mem_range.1 ht
    rw [List.getD_eq_getElem?_getD, List.getElem?_map, List.getElem?_range this]
    simp
  · rw [List.getElem?_eq_none (by simp; omega), List.getElem?_eq_none (by simp; omega)]

theorem run_window (f : ℕ → ℝ) (n a k : ℕ) (h : a + k ≤ n) :
    (((List.range n).map f).drop a).take k = runOf f a k := by
  apply List.ext_getElem?
  intro i
  unfold runOf
  by_cases hi : i < k
  · rw [List.getElem?_take_of_lt hi, List.getElem?_drop, List.getElem?_map, List.getElem?_map, List.getElem?_range hi,
      List.getElem?_range (by omega)]
    rfl
  · rw [List.getElem?_eq_none (by simp; omega), List.getElem?_eq_none (by simp; omega)]

theorem ratio_eq (y : List ℝ) (h : 4 ≤ y.length) :
    stdratio ((List.range y.length).map (amplitude y)) = .ok ((List.range (y.length / 2 - 1)).map (spreadRatio y)) := by
  obtain ⟨out, h1, h2, h3⟩ := (c43_stdratio ((List.range y.length).map (amplitude y))).2 (by simpa using h)
  rw [h1]
  congr 1
  simp only [List.length_map, List.length_range] at h2 h3
  apply List.ext_getElem?
  intro i
  by_cases hi : i < y.length / 2 - 1
  · rw [h3 i hi, List.getElem?_map, List.getElem?_range hi]
    simp only [Option.map_some, Option.some.injEq]
    have := run_window (amplitude y) y.length 0 (i + 2) (by omega)
    rw [List.drop_zero] at this
    rw [this, run_window (amplitude y) y.length (i + 2) (i + 2) (by omega)]
    rfl
  · rw [List.getElem?_eq_none (by omega), List.getElem?_eq_none (by simp; omega)]

theorem diff1_range (f : ℕ → ℝ) (n : ℕ) : diff1 ((List.range n).map f) = (List.range (n - 1)).map (fun i => f (i + 1) - f i) := by
  apply List.ext_getElem?
  intro i
  unfold diff1
  rw [List.getElem?_zipWith]
  by_cases hi : i < n - 1
  · rw [List.getElem?_tail, List.getElem?_map, List.getElem?_map, List.getElem?_map, List.getElem?_range hi,
      List.getElem?_range (by omega), List.getElem?_range (by omega)]
    rfl
  · rw [List.getElem?_tail, List.getElem?_map, List.getElem?_map, List.getElem?_map]
    rw [List.getElem?_eq_none (l := List.range n) (i := i + 1) (by simp; omega), List.getElem?_eq_none (l := List.range (n - 1)) (by simp; omega)]
    cases (Option.map f (List.range n)[i]?) <;> rfl

theorem negDiff2_range (f : ℕ → ℝ) (n : ℕ) :
    negDiff2 ((List.range n).map f) = (List.range (n - 2)).map (fun j => 2 * f (j + 1) - f j - f (j + 2)) := by
  unfold negDiff2
  rw [diff1_range, diff1_range, List.map_map]
  apply List.map_congr_left
  intro i _
  simp only [Function.comp]
  ring

theorem degenerate_iff (y : List ℝ) :
    ¬ Degenerate ((List.range y.length).map (amplitude y)) ↔ Spread y := by
  unfold Degenerate Spread
  simp only [List.length_map, List.length_range, not_exists, not_and]
  apply forall_congr'
  intro i
  apply imp_congr_right
  intro hi
  have v2 := variance_window ((List.range y.length).map (amplitude y)) (i + 2) (i + 2) (by simp; omega) (by omega)
  rw [run_window _ _ _ _ (by omega)] at v2
  rw [(rightAt_spec _ _).2.2, v2]
  have e : i + 2 + (i + 2) = 2 * i + 4 := by ring
  rw [e]
  have hp : ((i + 2 : ℕ) : ℝ) ≠ 0 := by positivity
  rw [Ne, div_eq_zero_iff, not_or]
  exact ⟨fun h => ⟨h, hp⟩, fun h => h.1⟩

theorem argmax_reverse (f : ℕ → ℝ) (N : ℕ) (hN : 0 < N) :
    ∃ k, Multimodel.argmax ((List.range N).map f).reverse = .ok k ∧ k < N ∧ LastMax f N (N - 1 - k) := by
  obtain ⟨v, l, hl⟩ : ∃ v l, ((List.range N).map f).reverse = v :: l := by
    apply List.exists_cons_of_ne_nil
    intro h
    have := congrArg List.length h
    simp at this
    omega
  have get : ∀ i < N, (v :: l)[i]? = some (f (N - 1 - i)) := by
    intro i hi
    rw [← hl, List.getElem?_reverse (by simpa using hi), List.getElem?_map, List.length_map, List.length_range,
      List.getElem?_range (by omega)]
    rfl
  rw [hl]
  obtain ⟨M, h1, h2, h3⟩ := Multimodel.argmaxLoop_spec l [v] 0 v rfl (by omega) (by simp)
  simp only [List.length_singleton, List.singleton_append] at h1 h2 h3
  refine ⟨Multimodel.argmaxLoop l 1 0 v, rfl, ?_⟩
  generalize Multimodel.argmaxLoop l 1 0 v = k at h1 h2
  have hk : k < N := by
    have := (List.getElem?_eq_some_iff.1 h1).1
    rw [← hl] at this
    simpa using this
  rw [get k hk] at h1
  simp only [Option.some.injEq] at h1
  refine ⟨hk, by omega, ?_, ?_⟩
  · intro i hi
    rw [h1]
    apply h3
    have := get (N - 1 - i) (by omega)
    rw [show N - 1 - (N - 1 - i) = i by omega] at this
    exact List.mem_of_getElem? this
  · intro i hi hlt
    rw [h1]
    have := get (N - 1 - i) (by omega)
    rw [show N - 1 - (N - 1 - i) = i by omega] at this
    exact h2 _ _ (by omega) this

/-- `find_qmax` step by step. -/
theorem findQmax_eq (nan : List ℝ → ℕ) (r y : List ℝ) (a b : ℝ) (ha : r.head? = some a) (hb : r.getLast? = some b)
    (hab : b - a ≠ 0) (hl : r.length = y.length) (hn : 4 ≤ r.length) :
    findQmax nan r y = (lastPeak nan ((List.range y.length).map (amplitude y)) ((List.range (y.length / 2 - 3)).map (bend y))).map
      (fun k => (2 * Real.pi * ((y.length / 2 - 3 - k + 1 : ℕ) : ℝ) / (b - a), 2 * Real.pi / (b - a))) := by
  unfold findQmax
  rw [if_neg (not_not.2 hl), ha, hb]
  simp only
  rw [if_neg (by omega), resample_between r y a b ha hb hab hl (by omega)]
  simp only [bind, Except.bind]
  rw [halfImag_eq, ratio_eq y (by omega)]
  simp only
  rw [negDiff2_range, linspace_last _ _ _ (by omega)]
  rw [show y.length / 2 - 1 - 2 = y.length / 2 - 3 by omega]
  rw [show (fun j => 2 * spreadRatio y (j + 1) - spreadRatio y j - spreadRatio y (j + 2)) = bend y from rfl]
  rcases lastPeak nan ((List.range y.length).map (amplitude y)) ((List.range (y.length / 2 - 3)).map (bend y)) with e | k
  · rfl
  · simp only [pure, Except.pure, Except.map, List.length_map, List.length_range, linspace_length]
    have h2 : (4 : ℝ) ≤ y.length := by exact_mod_cast hl ▸ hn
    have h3 : (y.length : ℝ) - 1 ≠ 0 := by linarith
    have h4 : 2 * (y.length : ℝ) - 1 ≠ 0 := by linarith
    rw [hl]
    congr 2
    · push_cast
      field_simp
    · field_simp

/-! ### Theorems -/

/-- **C93.** `find_qmax` needs two sequences of the same length (ValueError) with at least 8 points: with 2 or 3 it raises
IndexError, with 4 to 7 ValueError; with 8 or more it returns. -/
theorem c93_errors (nan : List ℝ → ℕ) (r y : List ℝ) :
    (r.length ≠ y.length → findQmax nan r y = .error .value) ∧
    (r = [] → y = [] → findQmax nan r y = .error .index) ∧
    (∀ a b, r.head? = some a → r.getLast? = some b → b - a ≠ 0 → r.length = y.length →
      (r.length < 4 → findQmax nan r y = .error .index) ∧
      (4 ≤ r.length → r.length < 8 → findQmax nan r y = .error .value) ∧
      (8 ≤ r.length → ∃ q, findQmax nan r y = .ok q)) := by
  refine ⟨fun h => by unfold findQmax; rw [if_pos h], fun h h' => by subst h h'; rfl, ?_⟩
  intro a b ha hb hab hl
  refine ⟨?_, ?_, ?_⟩
  · intro h
    have h2 : 2 ≤ r.length := by
      rcases r with _ | ⟨c, _ | ⟨d, l⟩⟩
      · simp at ha
      · simp only [List.head?_cons, Option.some.injEq] at ha
        simp only [List.getLast?_singleton, Option.some.injEq] at hb
        subst ha hb
        simp at hab
      · simp
    unfold findQmax
    rw [if_neg (not_not.2 hl), ha, hb]
    simp only
    rw [if_neg (by omega), resample_between r y a b ha hb hab hl h2]
    simp only [bind, Except.bind]
    rw [halfImag_eq, (c43_stdratio _).1 (by simp; omega)]
  · intro h h'
    rw [findQmax_eq nan r y a b ha hb hab hl h]
    have : y.length / 2 - 3 = 0 := by omega
    rw [this]
    unfold lastPeak
    simp [Except.map]
  · intro h
    rw [findQmax_eq nan r y a b ha hb hab hl (by omega)]
    have hne : (List.range (y.length / 2 - 3)).map (bend y) ≠ [] := by
      intro h'
      have := congrArg List.length h'
      simp at this
      omega
    unfold lastPeak
    rw [if_neg hne]
    split
    · exact ⟨_, rfl⟩
    · obtain ⟨k, hk, -⟩ := argmax_reverse (bend y) (y.length / 2 - 3) (by omega)
      rw [hk]
      exact ⟨_, rfl⟩

/-- **C93.** The value: `2π(j+2)/(length of the grid)`, where `j` is the last place at which the ratio of the spreads of
successive runs of sine amplitudes bends most; the uncertainty is one period over the length. -/
theorem c93_value (nan : List ℝ → ℕ) (r y : List ℝ) (a b : ℝ) (ha : r.head? = some a) (hb : r.getLast? = some b)
    (hab : b - a ≠ 0) (hl : r.length = y.length) (hn : 8 ≤ r.length) (hs : Spread y) :
    ∃ j, LastMax (bend y) (y.length / 2 - 3) j ∧
      findQmax nan r y = .ok (2 * Real.pi * (j + 2) / (b - a), 2 * Real.pi / (b - a)) := by
  rw [findQmax_eq nan r y a b ha hb hab hl (by omega)]
  have hne : (List.range (y.length / 2 - 3)).map (bend y) ≠ [] := by
    intro h'
    have := congrArg List.length h'
    simp at this
    omega
  obtain ⟨k, hk, hkN, hm⟩ := argmax_reverse (bend y) (y.length / 2 - 3) (by omega)
  refine ⟨_, hm, ?_⟩
  unfold lastPeak
  rw [if_neg hne, if_neg ((degenerate_iff y).2 hs), hk]
  simp only [Except.map]
  rw [show y.length / 2 - 3 - k + 1 = (y.length / 2 - 3 - 1 - k) + 2 by omega]
  push_cast
  rfl

/-- **C93.** Whatever the data, the value is a whole multiple (at least 2) of the uncertainty, and less than `π/dr`, the largest
that data with this spacing can have, by at least three halves of the uncertainty. -/
theorem c93_range (nan : List ℝ → ℕ) (hnan : ∀ f, 8 ≤ f.length → nan f < f.length / 2 - 3) (r y : List ℝ) (a b : ℝ) (ha : r.head? = some a)
    (hb : r.getLast? = some b) (hab : a < b) (hl : r.length = y.length) (hn : 8 ≤ r.length) :
    ∃ q dq, findQmax nan r y = .ok (q, dq) ∧ dq = 2 * Real.pi / (b - a) ∧ (∃ m : ℕ, 2 ≤ m ∧ q = m * dq) ∧ 0 < q ∧
      q + 3 / 2 * dq ≤ Real.pi / ((b - a) / ((r.length : ℝ) - 1)) := by
  have hd : 0 < b - a := by linarith
  rw [findQmax_eq nan r y a b ha hb hd.ne' hl (by omega)]
  have key : ∃ k, lastPeak nan ((List.range y.length).map (amplitude y)) ((List.range (y.length / 2 - 3)).map (bend y)) = .ok k ∧
      k < y.length / 2 - 3 := by
    have hne : (List.range (y.length / 2 - 3)).map (bend y) ≠ [] := by
      intro h'
      have := congrArg List.length h'
      simp at this
      omega
    unfold lastPeak
    rw [if_neg hne]
    split
    · exact ⟨_, rfl, by simpa using hnan ((List.range y.length).map (amplitude y)) (by simp; omega)⟩
    · obtain ⟨k, hk, hlt, -⟩ := argmax_reverse (bend y) (y.length / 2 - 3) (by omega)
      exact ⟨k, hk, hlt⟩
  obtain ⟨k, hk, hlt⟩ := key
  rw [hk]
  refine ⟨_, _, rfl, rfl, ⟨y.length / 2 - 3 - k + 1, by omega, by ring⟩, ?_, ?_⟩
  · have : (0 : ℝ) < ((y.length / 2 - 3 - k + 1 : ℕ) : ℝ) := by positivity
    have := Real.pi_pos
    positivity
  · have h1 : ((y.length / 2 - 3 - k + 1 : ℕ) : ℝ) * 2 + 4 ≤ y.length := by
      have : (y.length / 2 - 3 - k + 1) * 2 + 4 ≤ y.length := by omega
      exact_mod_cast this
    have hp := Real.pi_pos
    rw [div_div_eq_mul_div, hl, ← mul_div_assoc, ← add_div, div_le_div_iff_of_pos_right hd]
    nlinarith

/-- **C93.** Units: moving the origin of the grid does nothing, measuring distances in another unit changes qmax and its
uncertainty to that unit; the points inside the grid do not matter. -/
theorem c93_units (nan : List ℝ → ℕ) (r r' y : List ℝ) (a b s : ℝ) (ha : r.head? = some a) (hb : r.getLast? = some b) (hab : b - a ≠ 0)
    (a' b' : ℝ) (ha' : r'.head? = some a') (hb' : r'.getLast? = some b') (hs : s ≠ 0) (h : b' - a' = s * (b - a))
    (hr : r'.length = r.length) (hl : r.length = y.length) (hn : 8 ≤ r.length) :
    findQmax nan r' y = (findQmax nan r y).map (fun p => (p.1 / s, p.2 / s)) := by
  rw [findQmax_eq nan r y a b ha hb hab hl (by omega),
    findQmax_eq nan r' y a' b' ha' hb' (by rw [h]; exact mul_ne_zero hs hab) (by omega) (by omega), h]
  rcases lastPeak nan ((List.range y.length).map (amplitude y)) ((List.range (y.length / 2 - 3)).map (bend y)) with e | k
  · rfl
  · simp only [Except.map]
    congr 2 <;> field_simp

theorem LastMax.unique {f : ℕ → ℝ} {N i j : ℕ} (hi : LastMax f N i) (hj : LastMax f N j) : i = j := by
  rcases lt_trichotomy i j with h | h | h
  · exact absurd (hi.2.2 j hj.1 h) (not_lt.2 (hj.2.1 i hi.1))
  · exact h
  · exact absurd (hj.2.2 i hi.1 h) (not_lt.2 (hi.2.1 j hj.1))

theorem between_scale (y : List ℝ) (c : ℝ) (t : ℕ) : between (y.map (c * ·)) t = c * between y t := by
  unfold between
  rw [List.length_map, mul_sum]
  apply sum_congr rfl
  intro j hj
  have := mem_range.1 hj
  rw [List.getD_eq_getElem?_getD, List.getElem?_map, List.getD_eq_getElem?_getD, List.getElem?_eq_getElem this]
  simp only [Option.map_some, Option.getD_some]
  ring

theorem amplitude_scale (y : List ℝ) (c : ℝ) (k : ℕ) : amplitude (y.map (c * ·)) k = c * amplitude y k := by
  unfold amplitude
  rw [List.length_map, mul_neg, mul_sum]
  congr 1
  apply sum_congr rfl
  intro t _
  rw [between_scale]
  ring

theorem variance_scale (c : ℝ) (l : List ℝ) : variance (l.map (c * ·)) = c ^ 2 * variance l := by
  have hs : ∀ l : List ℝ, (l.map (c * ·)).sum = c * l.sum := by
    intro l
    induction l with
    | nil => simp
    | cons v l ih => simp [ih, mul_add]
  unfold variance
  rw [List.length_map, hs, List.map_map]
  have e : ∀ m : ℝ, (l.map ((fun v => (v - c * m) ^ 2) ∘ (c * ·))).sum = c ^ 2 * (l.map (fun v => (v - m) ^ 2)).sum := by
    intro m
    induction l with
    | nil => simp
    | cons v l ih =>
      simp only [List.map_cons, List.sum_cons, Function.comp] at ih ⊢
      rw [ih]
      ring
  rw [mul_div_assoc, e, mul_div_assoc]

theorem run_scale (y : List ℝ) (c : ℝ) (a k : ℕ) : runOf (amplitude (y.map (c * ·))) a k = (runOf (amplitude y) a k).map (c * ·) := by
  unfold runOf
  rw [List.map_map]
  apply List.map_congr_left
  intro i _
  exact amplitude_scale y c _

/-- **C93.** Units of the data: multiplying them by a number other than 0 does not change the value found. -/
theorem c93_scale (nan : List ℝ → ℕ) (r y : List ℝ) (a b c : ℝ) (hc : c ≠ 0) (ha : r.head? = some a) (hb : r.getLast? = some b)
    (hab : b - a ≠ 0) (hl : r.length = y.length) (hn : 8 ≤ r.length) (hs : Spread y) :
    findQmax nan r (y.map (c * ·)) = findQmax nan r y := by
  have hc2 : c ^ 2 ≠ 0 := pow_ne_zero 2 hc
  have hs' : Spread (y.map (c * ·)) := by
    intro i hi
    rw [run_scale, variance_scale]
    exact mul_ne_zero hc2 (hs i (by simpa using hi))
  obtain ⟨j, h1, h2⟩ := c93_value nan r y a b ha hb hab hl hn hs
  obtain ⟨j', h1', h2'⟩ := c93_value nan r (y.map (c * ·)) a b ha hb hab (by simpa using hl) hn hs'
  have hratio : ∀ i, spreadRatio (y.map (c * ·)) i = spreadRatio y i := by
    intro i
    unfold spreadRatio
    rw [run_scale, run_scale, variance_scale, variance_scale, Real.sqrt_mul (sq_nonneg c), Real.sqrt_mul (sq_nonneg c)]
    exact mul_div_mul_left _ _ (by rw [Real.sqrt_ne_zero (sq_nonneg c)]; exact hc2)
  have hbend : bend (y.map (c * ·)) = bend y := by
    funext i
    unfold bend
    rw [hratio, hratio, hratio]
  rw [hbend, List.length_map] at h1'
  rw [h2, h2', h1.unique h1']

end Verif.Pdf
