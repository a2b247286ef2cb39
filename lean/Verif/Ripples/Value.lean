import Verif.Ripples.Cut
import Mathlib.Analysis.Calculus.Deriv.Add
import Mathlib.Analysis.Calculus.Deriv.Mul

/-!
# C84: values and derivatives of peaks with termination ripples
-/

namespace Verif.Ripples

open Verif.Py Verif.Pdf Finset

/-! ### Specification -/

/-- `m` points from `x0` with spacing `h`. -/
def grid (x0 h : ℝ) (m : ℕ) : List ℝ := (List.range m).map (fun i : ℕ => x0 + i * h)

/-- The extension reaches from `a` down by `L` and from the other end up by `M` points of spacing `h`: to the left all
positive ones, on either side those less than `h` beyond `extension` times `2 pi / qmax`. -/
structure Reach (R : Rip) (a h : ℝ) (L M : ℕ) : Prop where
  left : ∀ k : ℕ, 1 ≤ k → (k ≤ L ↔ 0 < a - k * h ∧ k * h < R.extension * 2 * Real.pi / R.qmax + h)
  right : ∀ k : ℕ, 1 ≤ k → (k ≤ M ↔ k * h < R.extension * 2 * Real.pi / R.qmax + h)

/-- The function filtered on the grid of `m` points from `x0` with spacing `h`, extended by `L` and `M` points, at point `i`. -/
noncomputable def filtered (q : ℝ) (f : ℝ → ℝ) (x0 h : ℝ) (L m M P i : ℕ) : ℝ :=
  ∑ j ∈ range (L + m + M), f (x0 + ((j : ℝ) - L) * h) * kernel q P h (((L + i : ℕ) : ℤ) - j)

/-! ### Lemmas -/

theorem getElem?_grid {x0 h : ℝ} {m i : ℕ} (hi : i < m) : (grid x0 h m)[i]? = some (x0 + i * h) := by
  unfold grid
  rw [List.getElem?_map, List.getElem?_range hi]; rfl

@[simp] theorem length_grid (x0 h : ℝ) (m : ℕ) : (grid x0 h m).length = m := by simp [grid]

theorem head_grid {x0 h : ℝ} {m : ℕ} (hm : 1 ≤ m) : (grid x0 h m).head? = some x0 := by
  rw [List.head?_eq_getElem?, getElem?_grid (by omega)]; simp

theorem last_grid {x0 h : ℝ} {m : ℕ} (hm : 1 ≤ m) : (grid x0 h m).getLast? = some (x0 + ((m : ℝ) - 1) * h) := by
  rw [List.getLast?_eq_getElem?, length_grid, getElem?_grid (by omega), Nat.cast_sub hm]; simp

theorem slice_grid (x0 h : ℝ) (m : ℕ) (rng : Option (ℕ × ℕ)) :
    getSlice (grid x0 h m) rng = grid (x0 + (bounds m rng).1 * h) h ((bounds m rng).2 - (bounds m rng).1) := by
  have hb := bounds_le m rng
  apply List.ext_getElem?
  intro i
  by_cases hi : i < (bounds m rng).2 - (bounds m rng).1
  · rw [getElem?_grid hi]
    have := getElem?_getSlice (grid x0 h m) rng (i + (bounds m rng).1) (by rw [length_grid]; omega) (by rw [length_grid]; omega)
    rw [length_grid, Nat.add_sub_cancel] at this
    rw [this, getElem?_grid (by omega)]
    push_cast
    congr 1
    ring
  · rw [List.getElem?_eq_none (by rw [length_getSlice, length_grid]; omega), List.getElem?_eq_none (by rw [length_grid]; omega)]

theorem extend_grid (R : Rip) {x0 h : ℝ} {m : ℕ} (hh : 0 < h) (hm : 1 ≤ m) : ∃ L M, Reach R x0 h L M ∧
    extendGrid R (grid x0 h m) h = .ok (grid (x0 - L * h) h (L + m + M), (L, L + m)) := by
  unfold extendGrid
  rw [head_grid hm, last_grid hm]
  simp only
  generalize hE : R.extension * 2 * Real.pi / R.qmax = E
  generalize hl : arange (x0 - h) (max 0 (x0 - E - h)) (-h) = left
  generalize hr : arange (x0 + ((m : ℝ) - 1) * h + h) (x0 + ((m : ℝ) - 1) * h + E + h) h = right
  have kl : ∀ k : ℕ, k < left.length ↔ max 0 (x0 - E - h) < x0 - h - k * h := by
    intro k
    rw [← hl]
    unfold arange
    rw [List.length_map, List.length_range, Nat.lt_ceil, lt_div_iff_of_neg (by linarith)]
    constructor <;> intro h <;> linarith
  have kr : ∀ k : ℕ, k < right.length ↔ k * h < E := by
    intro k
    rw [← hr]
    unfold arange
    rw [List.length_map, List.length_range, Nat.lt_ceil, lt_div_iff₀ hh]
    constructor <;> intro h <;> linarith
  have gl : ∀ k : ℕ, k < left.length → left[k]? = some (x0 - h - k * h) := by
    intro k hk
    rw [← hl] at hk ⊢
    unfold arange at hk ⊢
    rw [List.length_map, List.length_range] at hk
    rw [List.getElem?_map, List.getElem?_range hk]
    simp only [Option.map_some, Option.some.injEq]
    ring
  have gr : ∀ k : ℕ, k < right.length → right[k]? = some (x0 + ((m : ℝ) - 1) * h + h + k * h) := by
    intro k hk
    rw [← hr] at hk ⊢
    unfold arange at hk ⊢
    rw [List.length_map, List.length_range] at hk
    rw [List.getElem?_map, List.getElem?_range hk]
    rfl
  refine ⟨left.length, right.length, ⟨?_, ?_⟩, ?_⟩
  · intro k hk
    rw [hE]
    have := kl (k - 1)
    rw [Nat.cast_sub hk, max_lt_iff] at this
    rw [show k ≤ left.length ↔ k - 1 < left.length by omega, this]
    push_cast
    constructor
    · rintro ⟨a, b⟩; exact ⟨by linarith, by linarith⟩
    · rintro ⟨a, b⟩; exact ⟨by linarith, by linarith⟩
  · intro k hk
    rw [hE]
    have := kr (k - 1)
    rw [Nat.cast_sub hk] at this
    rw [show k ≤ right.length ↔ k - 1 < right.length by omega, this]
    push_cast
    constructor <;> intro h <;> linarith
  · congr 1
    rw [Prod.mk.injEq, Prod.mk.injEq]
    refine ⟨?_, by simp, by simp; omega⟩
    apply List.ext_getElem?
    intro i
    by_cases h1 : i < left.length
    · rw [getElem?_grid (by omega), List.append_assoc, List.getElem?_append_left (by simpa using h1),
        List.getElem?_reverse h1, gl _ (by omega), Option.some.injEq, Nat.cast_sub (by omega), Nat.cast_sub (by omega)]
      push_cast
      ring
    · by_cases h2 : i < left.length + m
      · rw [getElem?_grid (by omega), List.append_assoc, List.getElem?_append_right (by simpa using h1),
          List.getElem?_append_left (by simp; omega), List.length_reverse, getElem?_grid (by omega), Option.some.injEq,
          Nat.cast_sub (by omega)]
        ring
      · by_cases h3 : i < left.length + m + right.length
        · rw [getElem?_grid h3, List.getElem?_append_right (by simp; omega), List.length_append, List.length_reverse,
            length_grid, gr _ (by omega), Option.some.injEq, Nat.cast_sub (by omega)]
          push_cast
          ring
        · rw [List.getElem?_eq_none (by simp; omega), List.getElem?_eq_none (by simp; omega)]

theorem reach_unique {R : Rip} {a h : ℝ} {L M L' M' : ℕ} (h1 : Reach R a h L M) (h2 : Reach R a h L' M') :
    L = L' ∧ M = M' := by
  constructor
  · apply le_antisymm
    · by_contra hc
      exact hc ((h2.left L (by omega)).2 ((h1.left L (by omega)).1 le_rfl))
    · by_contra hc
      exact hc ((h1.left L' (by omega)).2 ((h2.left L' (by omega)).1 le_rfl))
  · apply le_antisymm
    · by_contra hc
      exact hc ((h2.right M (by omega)).2 ((h1.right M (by omega)).1 le_rfl))
    · by_contra hc
      exact hc ((h1.right M' (by omega)).2 ((h2.right M' (by omega)).1 le_rfl))

/-- Some point is added on the right. -/
theorem reach_pos {R : Rip} (hq : 0 < R.qmax) (he : 0 < R.extension) {a h : ℝ} {L M : ℕ} (hr : Reach R a h L M) : 1 ≤ M := by
  rw [hr.right 1 le_rfl]
  have : 0 < R.extension * 2 * Real.pi / R.qmax := by have := Real.pi_pos; positivity
  push_cast
  linarith

theorem rippled_grid {R : Rip} (hq : 0 < R.qmax) (he : 0 < R.extension) {x0 h : ℝ} {m : ℕ} (hh : 0 < h) (hm : 1 ≤ m) {L M : ℕ}
    (hr : Reach R x0 h L M) {P : ℕ} (hP : Padded (L + m + M) P) (f : ℝ → ℝ) :
    rippled R f (grid x0 h m) h = .ok ((List.range m).map (fun i => filtered R.qmax f x0 h L m M P i)) := by
  obtain ⟨L', M', hr', hx⟩ := extend_grid R (x0 := x0) hh hm
  obtain ⟨rfl, rfl⟩ := reach_unique hr hr'
  have hM := reach_pos hq he hr
  unfold rippled
  rw [hx]
  have hlen : ((grid (x0 - L * h) h (L + m + M)).map f).length = L + m + M := by simp
  obtain ⟨out, h1, h2, h3⟩ := c83_kernel R.qmax h ((grid (x0 - L * h) h (L + m + M)).map f) hq hh (by omega) P
    (by rw [hlen]; exact hP)
  rw [hlen] at h2 h3
  simp only [bind, Except.bind, h1, pure, Except.pure]
  congr 1
  have hb : bounds out.length (some (L, L + m)) = (L, L + m) := by
    rw [h2]; simp only [bounds, Prod.mk.injEq]; omega
  apply List.ext_getElem?
  intro i
  by_cases hi : i < m
  · have := getElem?_getSlice out (some (L, L + m)) (i + L) (by rw [hb]; simp) (by rw [hb]; simp; omega)
    rw [hb, Nat.add_sub_cancel] at this
    rw [this, h3 _ (by omega), List.getElem?_map, List.getElem?_range hi]
    simp only [Option.map_some, Option.some.injEq]
    unfold filtered
    refine sum_congr rfl fun j hj => ?_
    rw [List.getD_eq_getElem?_getD, List.getElem?_map, getElem?_grid (mem_range.1 hj)]
    simp only [Option.map_some, Option.getD_some]
    rw [show x0 - (L : ℝ) * h + j * h = x0 + ((j : ℝ) - L) * h by ring, show i + L = L + i by omega]
  · rw [List.getElem?_eq_none (by rw [length_getSlice, hb]; simp; omega), List.getElem?_eq_none (by simp; omega)]

theorem every_map {α : Type} (n c : ℕ) (hn : 1 ≤ n) (f : ℕ → α) :
    every n ((List.range (c * n + 1)).map f) = (List.range (c + 1)).map (fun k => f (k * n)) := by
  unfold every
  simp only [List.length_map, List.length_range]
  rw [show (c * n + 1 + n - 1) / n = c + 1 by
    rw [show c * n + 1 + n - 1 = (c + 1) * n by ring_nf; omega]; exact Nat.mul_div_cancel _ (by omega)]
  rw [← List.filterMap_eq_map (f := fun k => f (k * n))]
  apply List.filterMap_congr
  intro k hk
  have hk' : k ≤ c := by have := List.mem_range.1 hk; omega
  have : k * n < c * n + 1 := by have := Nat.mul_le_mul_right n hk'; omega
  rw [List.getElem?_map, List.getElem?_range this]
  rfl

theorem refined_grid {x0 d : ℝ} (hd : 0 < d) {n c : ℕ} (hn : 1 ≤ n) :
    refined (grid x0 d (c + 1)) n (d / n) = .ok (grid x0 (d / n) (c * n + 1)) := by
  unfold refined
  have hn' : (0 : ℝ) < n := by exact_mod_cast hn
  split
  · rw [head_grid (by omega), last_grid (by omega)]
    simp only
    congr 1
    unfold arange grid
    have : ⌈(x0 + (((c + 1 : ℕ) : ℝ) - 1) * d + d / n / 2 - x0) / (d / n)⌉₊ = c * n + 1 := by
      have e : (x0 + (((c + 1 : ℕ) : ℝ) - 1) * d + d / n / 2 - x0) / (d / n) = ((c * n : ℕ) : ℝ) + 1 / 2 := by
        push_cast
        field_simp
        ring
      rw [e]
      rw [Nat.ceil_eq_iff (by omega)]
      push_cast
      constructor
      · simp
      · norm_num
    rw [this]
  · have : n = 1 := by omega
    subst this
    simp

theorem step_grid {a d : ℝ} {n : ℕ} (hn : 2 ≤ n) : step (grid a d n) = .ok d := by
  unfold step
  rw [head_grid (by omega), last_grid (by omega), length_grid]
  simp only
  congr 1
  have : (n : ℝ) - 1 ≠ 0 := by
    have : (2 : ℝ) ≤ n := by exact_mod_cast hn
    intro h; linarith
  field_simp
  ring

theorem drSuper_pos {R : Rip} (hq : 0 < R.qmax) (hs : 0 < R.supersample) : 0 < drSuper R := by
  have := Real.pi_pos
  unfold drSuper
  positivity

theorem segments_grid {R : Rip} (hq : 0 < R.qmax) (hs : 0 < R.supersample) {a d : ℝ} {n : ℕ} (hn : 2 ≤ n) (hd : 0 < d) :
    segments R (grid a d n) d = .ok ⌈d / drSuper R⌉₊ ∧ 1 ≤ ⌈d / drSuper R⌉₊ := by
  have h0 : 0 < d / drSuper R := div_pos hd (drSuper_pos hq hs)
  have h1 : 0 < ⌈d / drSuper R⌉ := Int.ceil_pos.2 h0
  constructor
  · unfold segments
    rw [if_neg (by rw [length_grid]; omega), if_pos h1]
    rfl
  · exact Nat.ceil_pos.2 h0

theorem setSlice_grid (a d : ℝ) (n : ℕ) (rng : Option (ℕ × ℕ)) (f : ℕ → ℝ) :
    ∃ out, setSlice ((grid a d n).map (· * 0)) rng ((List.range ((bounds n rng).2 - (bounds n rng).1)).map f) = .ok out ∧
      out.length = n ∧ ∀ i, i < n → out[i]? = some
        (if (bounds n rng).1 ≤ i ∧ i < (bounds n rng).2 then f (i - (bounds n rng).1) else 0) := by
  have hl : ((grid a d n).map (· * 0)).length = n := by simp
  obtain ⟨out, h1, h2, h3⟩ := setSlice_ok ((grid a d n).map (· * 0)) rng
    ((List.range ((bounds n rng).2 - (bounds n rng).1)).map f) (by rw [length_getSlice, hl]; simp)
  rw [hl] at h2 h3
  refine ⟨out, h1, h2, fun i hi => ?_⟩
  rw [h3]
  split
  · rw [List.getElem?_map, List.getElem?_range (by omega)]; rfl
  · rw [List.getElem?_map, getElem?_grid hi]; simp

/-! ### Values -/

/-- **C84.** On a uniform grid of at least two points, and for every range of it that is not empty, a value is returned
for every point: 0 outside the range; inside it the base function filtered on a grid that contains the points of the
range, is `⌈d / dr_super⌉` times as dense, hence no coarser than `2 pi / (supersample qmax)`, and is extended on both
sides. -/
theorem c84_value (R : Rip) (hq : 0 < R.qmax) (he : 0 < R.extension) (hs : 0 < R.supersample) (a d : ℝ) (hd : 0 < d) (n : ℕ)
    (hn : 2 ≤ n) (rng : Option (ℕ × ℕ)) (lo hi : ℕ) (hb : bounds n rng = (lo, hi)) (hlt : lo < hi) :
    ∃ k L M : ℕ, 1 ≤ k ∧ d / k ≤ 2 * Real.pi / (R.supersample * R.qmax) ∧
      (∀ k' : ℕ, 1 ≤ k' → d / k' ≤ 2 * Real.pi / (R.supersample * R.qmax) → k ≤ k') ∧
      Reach R (a + lo * d) (d / k) L M ∧
      ∀ P, Padded (L + ((hi - 1 - lo) * k + 1) + M) P → ∀ f : ℝ → ℝ, ∃ out, value R true f (grid a d n) rng = .ok out ∧
        out.length = n ∧ ∀ i, i < n → out[i]? = some (if lo ≤ i ∧ i < hi then
          filtered R.qmax f (a + lo * d) (d / k) L ((hi - 1 - lo) * k + 1) M P ((i - lo) * k) else 0) := by
  obtain ⟨hseg, hk⟩ := segments_grid (a := a) hq hs hn hd
  generalize hkk : ⌈d / drSuper R⌉₊ = k at hseg hk
  have hk' : (0 : ℝ) < k := by exact_mod_cast hk
  have hdk : 0 < d / k := div_pos hd hk'
  have hds := drSuper_pos hq hs
  obtain ⟨L, M, hr, -⟩ := extend_grid R (x0 := a + lo * d) (m := (hi - 1 - lo) * k + 1) hdk (by omega)
  refine ⟨k, L, M, hk, ?_, ?_, hr, fun P hP f => ?_⟩
  · change d / k ≤ drSuper R
    rw [div_le_iff₀ hk', ← div_le_iff₀' hds, ← hkk]
    exact Nat.le_ceil _
  · intro k' h1 h2
    change d / k' ≤ drSuper R at h2
    have h1' : (0 : ℝ) < k' := by exact_mod_cast h1
    rw [div_le_iff₀ h1', ← div_le_iff₀' hds] at h2
    rw [← hkk]
    exact Nat.ceil_le.2 h2
  · unfold value
    rw [if_pos rfl, step_grid hn]
    simp only [bind, Except.bind, hseg]
    rw [slice_grid, hb]
    simp only
    obtain ⟨c, hc⟩ : ∃ c, hi - lo = c + 1 := ⟨hi - 1 - lo, by omega⟩
    rw [show hi - 1 - lo = c by omega] at hP ⊢
    rw [hc, refined_grid hd hk]
    simp only
    rw [rippled_grid hq he hdk (by omega) hr hP]
    simp only
    rw [every_map k c hk]
    obtain ⟨out, h1, h2, h3⟩ := setSlice_grid a d n rng (fun i => filtered R.qmax f (a + lo * d) (d / k) L (c * k + 1) M P (i * k))
    rw [hb] at h1 h3
    simp only [hc] at h1 h3
    exact ⟨out, h1, h2, h3⟩

/-- **C84.** The value at a single number is the filtered value at that point, on a grid of spacing
`2 pi / (supersample qmax)` around it. -/
theorem c84_value_at (R : Rip) (hq : 0 < R.qmax) (he : 0 < R.extension) (hs : 0 < R.supersample) (x : ℝ) :
    ∃ L M : ℕ, Reach R x (2 * Real.pi / (R.supersample * R.qmax)) L M ∧ ∀ P, Padded (L + 1 + M) P → ∀ f : ℝ → ℝ,
      valueAt R true f x = .ok (filtered R.qmax f x (2 * Real.pi / (R.supersample * R.qmax)) L 1 M P 0) := by
  have hds := drSuper_pos hq hs
  obtain ⟨L, M, hr, -⟩ := extend_grid R (x0 := x) (m := 1) hds le_rfl
  refine ⟨L, M, hr, fun P hP f => ?_⟩
  unfold valueAt
  rw [if_pos rfl]
  have : [x] = grid x (drSuper R) 1 := by simp [grid]
  rw [this, rippled_grid hq he hds le_rfl hr hP]
  rfl

theorem filtered_linear (q a b : ℝ) (f g : ℝ → ℝ) (x0 h : ℝ) (L m M P i : ℕ) :
    filtered q (fun x => a * f x + b * g x) x0 h L m M P i = a * filtered q f x0 h L m M P i + b * filtered q g x0 h L m M P i := by
  unfold filtered
  rw [mul_sum, mul_sum, ← sum_add_distrib]
  refine sum_congr rfl fun j _ => ?_
  ring

/-- **C84.** Values with ripples are linear in the base function. -/
theorem c84_linear (R : Rip) (hq : 0 < R.qmax) (he : 0 < R.extension) (hs : 0 < R.supersample) (a d : ℝ) (hd : 0 < d) (n : ℕ)
    (hn : 2 ≤ n) (rng : Option (ℕ × ℕ)) (hlt : (bounds n rng).1 < (bounds n rng).2) (u v : ℝ) (f g : ℝ → ℝ) :
    ∃ F G H, value R true f (grid a d n) rng = .ok F ∧ value R true g (grid a d n) rng = .ok G ∧
      value R true (fun x => u * f x + v * g x) (grid a d n) rng = .ok H ∧
      H = List.zipWith (fun x y => u * x + v * y) F G := by
  obtain ⟨lo, hi, hb⟩ : ∃ lo hi, bounds n rng = (lo, hi) := ⟨_, _, rfl⟩
  rw [hb] at hlt
  obtain ⟨k, L, M, -, -, -, -, h⟩ := c84_value R hq he hs a d hd n hn rng lo hi hb hlt
  have hP := padlen_padded (n := L + ((hi - 1 - lo) * k + 1) + M) (by omega)
  obtain ⟨F, f1, f2, f3⟩ := h _ hP f
  obtain ⟨G, g1, g2, g3⟩ := h _ hP g
  obtain ⟨H, h1, h2, h3⟩ := h _ hP (fun x => u * f x + v * g x)
  refine ⟨F, G, H, f1, g1, h1, ?_⟩
  apply List.ext_getElem?
  intro i
  by_cases hin : i < n
  · rw [h3 i hin, List.getElem?_zipWith, f3 i hin, g3 i hin]
    simp only [Option.some.injEq]
    by_cases hc : lo ≤ i ∧ i < hi
    · rw [if_pos hc, if_pos hc, if_pos hc, filtered_linear]
    · rw [if_neg hc, if_neg hc, if_neg hc]; ring
  · rw [List.getElem?_eq_none (by omega), List.getElem?_eq_none (by simp; omega)]

/-! ### Derivatives -/

/-- A row of the Jacobian. -/
theorem jacRow_grid {R : Rip} (hq : 0 < R.qmax) (he : 0 < R.extension) {a d : ℝ} (hd : 0 < d) {n : ℕ} {rng : Option (ℕ × ℕ)}
    {lo hi : ℕ} (hb : bounds n rng = (lo, hi)) (hlt : lo < hi) {L M P : ℕ} (hr : Reach R (a + lo * d) d L M)
    (hP : Padded (L + (hi - lo) + M) P) (f : ℝ → ℝ) : ∃ out, jacRow R (grid a d n) rng d (some f) = .ok (some out) ∧
      out.length = n ∧ ∀ i, i < n → out[i]? = some (if lo ≤ i ∧ i < hi then
          filtered R.qmax f (a + lo * d) d L (hi - lo) M P (i - lo) else 0) := by
  unfold jacRow
  simp only
  rw [slice_grid, hb]
  simp only
  rw [rippled_grid hq he hd (by omega) hr hP]
  simp only [bind, Except.bind]
  obtain ⟨out, h1, h2, h3⟩ := setSlice_grid a d n rng (fun i => filtered R.qmax f (a + lo * d) d L (hi - lo) M P i)
  rw [hb] at h1 h3
  simp only at h1 h3
  rw [h1]
  exact ⟨out, rfl, h2, h3⟩

theorem mapM_rows {α β : Type} {g : α → Res β} {h : α → β} : ∀ {l : List α}, (∀ x ∈ l, g x = .ok (h x)) →
    l.mapM g = .ok (l.map h) := by
  intro l
  induction l with
  | nil => intro _; rfl
  | cons x l ih =>
    intro hx
    rw [List.mapM_cons, hx x (by simp), ih (fun y hy => hx y (by simp [hy]))]
    rfl

/-- **C84.** On a grid as fine as `2 pi / (supersample qmax)`, the Jacobian is that of the value: a row for each
parameter, None for the fixed ones; if the partial derivatives of the base function are right, so are those with
ripples. -/
theorem c84_jacobian (R : Rip) (hq : 0 < R.qmax) (he : 0 < R.extension) (hs : 0 < R.supersample) (a d : ℝ) (hd : 0 < d)
    (hfine : d ≤ 2 * Real.pi / (R.supersample * R.qmax)) (n : ℕ) (hn : 2 ≤ n) (rng : Option (ℕ × ℕ))
    (hlt : (bounds n rng).1 < (bounds n rng).2) (D : List (Option (ℝ → ℝ))) :
    ∃ rows, jacobian R true D (grid a d n) rng = .ok rows ∧ rows.length = D.length ∧
      (∀ p : ℕ, D[p]? = some none → rows[p]? = some none) ∧
      ∀ (p : ℕ) (f' : ℝ → ℝ), D[p]? = some (some f') → ∃ row, rows[p]? = some (some row) ∧ row.length = n ∧
        value R true f' (grid a d n) rng = .ok row ∧
        ∀ (f : ℝ → ℝ → ℝ) (t : ℝ), (∀ x, HasDerivAt (fun s => f s x) (f' x) t) →
          ∃ V : ℝ → List ℝ, (∀ s, value R true (f s) (grid a d n) rng = .ok (V s)) ∧
            ∀ i, i < n → HasDerivAt (fun s => (V s).getD i 0) (row.getD i 0) t := by
  obtain ⟨lo, hi, hb⟩ : ∃ lo hi, bounds n rng = (lo, hi) := ⟨_, _, rfl⟩
  rw [hb] at hlt
  obtain ⟨k, L, M, hk, -, hmin, hr, hv⟩ := c84_value R hq he hs a d hd n hn rng lo hi hb hlt
  have hk1 : k = 1 := by
    have := hmin 1 le_rfl (by simpa using hfine)
    omega
  subst hk1
  simp only [Nat.cast_one, div_one, mul_one] at hr hv
  have hcast : hi - 1 - lo + 1 = hi - lo := by omega
  rw [hcast] at hv
  have hP := padlen_padded (n := L + (hi - lo) + M) (by omega)
  have hv' := hv _ hP
  choose V hV1 hV2 hV3 using hv'
  have hrow : ∀ x ∈ D, jacRow R (grid a d n) rng d x = .ok (x.map V) := by
    intro x _
    cases x with
    | none => rfl
    | some f =>
      obtain ⟨out, o1, o2, o3⟩ := jacRow_grid hq he hd hb hlt hr hP f
      rw [o1]
      congr 1
      simp only [Option.map_some, Option.some.injEq]
      apply List.ext_getElem?
      intro i
      by_cases hin : i < n
      · rw [o3 i hin, hV3 f i hin]
      · rw [List.getElem?_eq_none (by omega), List.getElem?_eq_none (by rw [hV2]; omega)]
  obtain ⟨L', M', -, hx⟩ := extend_grid R (x0 := a + lo * d) (m := hi - lo) hd (by omega)
  refine ⟨D.map (fun x => x.map V), ?_, by simp, ?_, ?_⟩
  · unfold jacobian jacStep
    rw [if_pos rfl, if_pos (by rw [length_grid]; omega), step_grid hn]
    simp only [bind, Except.bind]
    rw [slice_grid, hb]
    simp only
    rw [hx]
    exact mapM_rows hrow
  · intro p hp
    rw [List.getElem?_map, hp]; rfl
  · intro p f' hp
    refine ⟨V f', by rw [List.getElem?_map, hp]; rfl, hV2 f', hV1 f', fun f t hf => ⟨fun s => V (f s), fun s => hV1 (f s), fun i hin => ?_⟩⟩
    simp only [List.getD_eq_getElem?_getD, hV3 _ i hin, Option.getD_some]
    by_cases hc : lo ≤ i ∧ i < hi
    · simp only [if_pos hc]
      unfold filtered
      apply HasDerivAt.fun_sum
      intro j _
      exact (hf _).mul_const _
    · simp only [if_neg hc]
      exact hasDerivAt_const _ _

/-! ### Findings -/

/-- **C84, finding.** A sequence of a single point raises ValueError; an empty range raises IndexError (functions without
ripples return zeros). -/
theorem c84_short (R : Rip) (f : ℝ → ℝ) (x : ℝ) (rng : Option (ℕ × ℕ)) : value R true f [x] rng = .error .value ∧
    ∀ (a d : ℝ) (n : ℕ), 0 < R.qmax → 0 < R.supersample → 0 < d → 2 ≤ n → (bounds n rng).2 ≤ (bounds n rng).1 →
      value R true f (grid a d n) rng = .error .index := by
  constructor
  · unfold value
    rfl
  · intro a d n hq hs hd hn hle
    obtain ⟨hseg, hk⟩ := segments_grid (a := a) hq hs hn hd
    unfold value
    rw [if_pos rfl, step_grid hn]
    simp only [bind, Except.bind, hseg]
    rw [slice_grid, show (bounds n rng).2 - (bounds n rng).1 = 0 by omega]
    have h0 : ∀ y, grid y d 0 = [] := by intro y; simp [grid]
    rw [h0]
    unfold refined
    by_cases h1 : 1 < ⌈d / drSuper R⌉₊
    · rw [if_pos h1]; rfl
    · rw [if_neg h1]; rfl

/-- **C84, finding.** The Jacobian at a single number always raises NameError. -/
theorem c84_jacobian_at : jacobianAt true = .error .name := rfl

/-- A coarse grid: two points, 2.5 and 7.5, where `2 pi / (supersample qmax)` is `pi`. -/
noncomputable def coarse : Rip := ⟨1, 1 / 10, 2⟩

/-- A narrow peak between the two points. -/
noncomputable def bump (x : ℝ) : ℝ := if x = 5 then 4 else 0

theorem keep_zero {q d : ℝ} {P : ℕ} (hq : 0 < q) : Keep q P d 0 := by
  unfold Keep
  simpa using hq

theorem coarse_reach {x h : ℝ} (hx : x ≤ h) (hh : 1 < h) : Reach coarse x h 0 1 := by
  have e : coarse.extension * 2 * Real.pi / coarse.qmax = Real.pi / 5 := by simp only [coarse]; ring
  have := Real.pi_lt_four
  have := Real.pi_pos
  constructor
  · intro k hk
    have hk' : (1 : ℝ) ≤ k := by exact_mod_cast hk
    constructor
    · intro h; omega
    · rintro ⟨h1, -⟩
      exfalso
      nlinarith
  · intro k hk
    rw [e]
    constructor
    · intro h
      have : k = 1 := by omega
      subst this
      push_cast
      linarith
    · intro h
      by_contra hc
      have : (2 : ℝ) ≤ k := by exact_mod_cast (by omega : 2 ≤ k)
      nlinarith

theorem coarse_kernel4 : kernel 1 4 (5 / 2) (-1) = 1 / 4 := by
  classical
  have k0 : Keep 1 4 (5 / 2) 0 := keep_zero one_pos
  have h1 := Real.pi_lt_d2
  have h2 := Real.pi_gt_three
  have k1 : Keep 1 4 (5 / 2) 1 := by
    unfold Keep; norm_num; linarith
  have k2 : ¬ Keep 1 4 (5 / 2) 2 := by
    unfold Keep; norm_num; linarith
  have k3 : Keep 1 4 (5 / 2) 3 := by
    unfold Keep; norm_num; linarith
  have c1 : Real.cos (2 * Real.pi * ((1 : ℕ) : ℝ) * ((-1 : ℤ) : ℝ) / (4 : ℕ)) = 0 := by
    rw [show 2 * Real.pi * ((1 : ℕ) : ℝ) * ((-1 : ℤ) : ℝ) / (4 : ℕ) = -(Real.pi / 2) by push_cast; ring, Real.cos_neg, Real.cos_pi_div_two]
  have c3 : Real.cos (2 * Real.pi * ((3 : ℕ) : ℝ) * ((-1 : ℤ) : ℝ) / (4 : ℕ)) = 0 := by
    rw [show 2 * Real.pi * ((3 : ℕ) : ℝ) * ((-1 : ℤ) : ℝ) / (4 : ℕ) = -(Real.pi / 2 + Real.pi) by push_cast; ring, Real.cos_neg,
      Real.cos_add_pi, Real.cos_pi_div_two, neg_zero]
  unfold kernel
  rw [sum_filter, sum_range_succ, sum_range_succ, sum_range_succ, sum_range_succ, sum_range_zero, if_pos k0, if_pos k1,
    if_neg k2, if_pos k3, c1, c3]
  simp

theorem coarse_kernel2 : kernel 1 2 (5 / 2) (-1) = 1 / 2 := by
  classical
  have k0 : Keep 1 2 (5 / 2) 0 := keep_zero one_pos
  have h2 := Real.pi_gt_three
  have k1 : ¬ Keep 1 2 (5 / 2) 1 := by
    unfold Keep; norm_num; linarith
  unfold kernel
  rw [sum_filter, sum_range_succ, sum_range_succ, sum_range_zero, if_pos k0, if_neg k1]
  simp

/-- The value on the coarse grid. -/
theorem coarse_value (rng : Option (ℕ × ℕ)) (hi : ℕ) (hb : bounds 2 rng = (0, hi)) (h1 : 0 < hi) (P : ℕ)
    (hP : Padded ((hi - 1) * 2 + 1 + 1) P) (f : ℝ → ℝ) :
    ∃ out, value coarse true f (grid (5 / 2) 5 2) rng = .ok out ∧ out.length = 2 ∧
      out[0]? = some (∑ j ∈ range ((hi - 1) * 2 + 1 + 1), f (5 / 2 + j * (5 / 2)) * kernel 1 P (5 / 2) (-j)) := by
  have p1 := Real.pi_lt_four
  have p2 := Real.pi_gt_three
  obtain ⟨k, L, M, hk, hk1, hk2, hr, h⟩ := c84_value coarse (by simp [coarse]) (by simp [coarse]) (by simp [coarse])
    (5 / 2) 5 (by norm_num) 2 le_rfl rng 0 hi hb h1
  have e : 2 * Real.pi / (coarse.supersample * coarse.qmax) = Real.pi := by simp only [coarse]; ring
  rw [e] at hk1 hk2
  have : k = 2 := by
    have := hk2 2 (by omega) (by norm_num; linarith)
    have : k ≠ 1 := by
      rintro rfl
      norm_num at hk1
      linarith
    omega
  subst this
  have e2 : (5 : ℝ) / (2 : ℕ) = 5 / 2 := by norm_num
  rw [e2] at hr h
  simp only [Nat.cast_zero, zero_mul, add_zero] at hr h
  obtain ⟨rfl, rfl⟩ := reach_unique hr (coarse_reach le_rfl (by norm_num))
  obtain ⟨out, o1, o2, o3⟩ := h P (by simpa using hP) f
  refine ⟨out, o1, o2, ?_⟩
  rw [o3 0 (by omega), if_pos ⟨le_rfl, h1⟩]
  unfold filtered
  simp [coarse]

/-- **C84, finding.** On a coarser grid than that, the Jacobian need not be the derivative: the values are computed on a
finer grid, the Jacobian is not.  (A peak of height `s` between the points: the first value grows like `s`, the
Jacobian says it is constant.) -/
theorem c84_coarse_jacobian : ∃ (V : ℝ → List ℝ) (row : List ℝ),
    (∀ s, value coarse true (fun x => s * bump x) [5 / 2, 15 / 2] none = .ok (V s)) ∧
    (∀ s x, HasDerivAt (fun s => s * bump x) (bump x) s) ∧ jacobian coarse true [some bump] [5 / 2, 15 / 2] none = .ok [some row] ∧
    (∀ s, HasDerivAt (fun s => (V s).getD 0 0) 1 s) ∧ row.getD 0 0 = 0 := by
  have hg : [5 / 2, 15 / 2] = grid (5 / 2) 5 2 := by
    simp [grid, List.range_succ]; norm_num
  rw [hg]
  have hv : ∀ f : ℝ → ℝ, _ := fun f => coarse_value none 2 rfl (by norm_num) 4 ⟨⟨2, by norm_num⟩, by norm_num, by norm_num⟩ f
  choose V v1 v2 v3 using hv
  obtain ⟨row, r1, r2, r3⟩ := jacRow_grid (R := coarse) (by simp [coarse]) (by simp [coarse]) (a := 5 / 2) (d := 5) (by norm_num) (n := 2)
    (rng := none) (lo := 0) (hi := 2) rfl (by norm_num) (L := 0) (M := 1) (P := 4)
    (by simpa using coarse_reach (x := 5 / 2) (h := 5) (by norm_num) (by norm_num)) ⟨⟨2, by norm_num⟩, by norm_num, by norm_num⟩ bump
  refine ⟨fun s => V (fun x => s * bump x), row, fun s => v1 _, fun s x => ?_, ?_, fun s => ?_, ?_⟩
  · simpa using (hasDerivAt_id s).mul_const (bump x)
  · unfold jacobian jacStep
    obtain ⟨L', M', -, hx⟩ := extend_grid coarse (x0 := 5 / 2) (h := 5) (m := 2) (by norm_num) (by norm_num)
    have hs : getSlice (grid (5 / 2) 5 2) none = grid (5 / 2) 5 2 := by rw [slice_grid]; simp [bounds]
    rw [if_pos rfl, if_pos (by simp), step_grid le_rfl]
    simp only [bind, Except.bind]
    rw [hs, hx]
    simp only [List.mapM_cons, List.mapM_nil]
    rw [r1]
    rfl
  · have : ∀ t : ℝ, (V (fun x => t * bump x)).getD 0 0 = t := by
      intro t
      rw [List.getD_eq_getElem?_getD, v3, Option.getD_some, sum_range_succ, sum_range_succ, sum_range_succ, sum_range_succ,
        sum_range_zero]
      have b0 : bump (5 / 2 + ((0 : ℕ) : ℝ) * (5 / 2)) = 0 := by unfold bump; rw [if_neg (by norm_num)]
      have b1 : bump (5 / 2 + ((1 : ℕ) : ℝ) * (5 / 2)) = 4 := by unfold bump; rw [if_pos (by norm_num)]
      have b2 : bump (5 / 2 + ((2 : ℕ) : ℝ) * (5 / 2)) = 0 := by unfold bump; rw [if_neg (by norm_num)]
      have b3 : bump (5 / 2 + ((3 : ℕ) : ℝ) * (5 / 2)) = 0 := by unfold bump; rw [if_neg (by norm_num)]
      rw [b0, b1, b2, b3, show (-((1 : ℕ) : ℤ)) = -1 by norm_num, coarse_kernel4]
      ring
    simp only [this]
    exact hasDerivAt_id s
  · rw [List.getD_eq_getElem?_getD, r3 0 (by norm_num), if_pos (by norm_num), Option.getD_some]
    unfold filtered
    have p1 := Real.pi_lt_d2
    have hk : ∀ k, k < 4 → Keep 1 4 5 k := by
      intro k hk
      unfold Keep
      have : ((min k (4 - k) : ℕ) : ℝ) ≤ 2 := by exact_mod_cast (by omega : min k (4 - k) ≤ 2)
      have h0 : 0 ≤ 2 * Real.pi / (((4 : ℕ) - 1 : ℝ) * 5) := by have := Real.pi_pos; positivity
      have := mul_le_mul_of_nonneg_right this h0
      refine lt_of_le_of_lt this ?_
      norm_num
      linarith
    apply sum_eq_zero
    intro j hj
    have hj := mem_range.1 hj
    have hb : bump (5 / 2 + 0 * 5 + ((j : ℝ) - (0 : ℕ)) * 5) = 0 := by
      unfold bump
      rw [if_neg]
      intro h
      have : ((2 * j : ℕ) : ℝ) = (1 : ℕ) := by push_cast at h ⊢; linarith
      have := Nat.cast_injective this
      omega
    rw [show ((0 : ℕ) : ℝ) = 0 by norm_num] at hb ⊢
    rw [hb, zero_mul]

/-- **C84, finding.** The values in a range are not those of the whole grid: the base function is cut off where the
range (with its extension) ends. -/
theorem c84_range_not_mask : ∃ A B : List ℝ, value coarse true bump [5 / 2, 15 / 2] none = .ok A ∧
    value coarse true bump [5 / 2, 15 / 2] (some (0, 1)) = .ok B ∧ A[0]? = some 1 ∧ B[0]? = some 2 := by
  have hg : [5 / 2, 15 / 2] = grid (5 / 2) 5 2 := by
    simp [grid, List.range_succ]; norm_num
  rw [hg]
  obtain ⟨A, a1, a2, a3⟩ := coarse_value none 2 rfl (by norm_num) 4 ⟨⟨2, by norm_num⟩, by norm_num, by norm_num⟩ bump
  obtain ⟨B, b1, b2, b3⟩ := coarse_value (some (0, 1)) 1 rfl (by norm_num) 2 ⟨⟨1, by norm_num⟩, by norm_num, by norm_num⟩ bump
  have e0 : bump (5 / 2 + ((0 : ℕ) : ℝ) * (5 / 2)) = 0 := by unfold bump; rw [if_neg (by norm_num)]
  have e1 : bump (5 / 2 + ((1 : ℕ) : ℝ) * (5 / 2)) = 4 := by unfold bump; rw [if_pos (by norm_num)]
  have e2 : bump (5 / 2 + ((2 : ℕ) : ℝ) * (5 / 2)) = 0 := by unfold bump; rw [if_neg (by norm_num)]
  have e3 : bump (5 / 2 + ((3 : ℕ) : ℝ) * (5 / 2)) = 0 := by unfold bump; rw [if_neg (by norm_num)]
  refine ⟨A, B, a1, b1, ?_, ?_⟩
  · rw [a3, sum_range_succ, sum_range_succ, sum_range_succ, sum_range_succ, sum_range_zero, e0, e1, e2, e3,
      show (-((1 : ℕ) : ℤ)) = -1 by norm_num, coarse_kernel4]
    norm_num
  · rw [b3, sum_range_succ, sum_range_succ, sum_range_zero, e0, e1, show (-((1 : ℕ) : ℤ)) = -1 by norm_num, coarse_kernel2]
    norm_num

/-! ### Examples -/

/-- The hypotheses of `c84_value` and `c84_linear` are met. -/
example (u v : ℝ) : ∃ F G H, value coarse true bump (grid (5 / 2) 5 2) none = .ok F ∧
    value coarse true (fun x => x) (grid (5 / 2) 5 2) none = .ok G ∧
    value coarse true (fun x => u * bump x + v * x) (grid (5 / 2) 5 2) none = .ok H ∧
    H = List.zipWith (fun x y => u * x + v * y) F G :=
  c84_linear coarse (by simp [coarse]) (by simp [coarse]) (by simp [coarse]) _ _ (by norm_num) 2 le_rfl none (by decide) u v _ _

/-- The hypotheses of `c84_jacobian` are met: a grid of spacing 2, a free height and a fixed position. -/
example : ∃ rows, jacobian coarse true [some bump, none] (grid 1 2 5) (some (1, 3)) = .ok rows ∧ rows.length = 2 ∧ rows[1]? = some none := by
  obtain ⟨rows, h1, h2, h3, -⟩ := c84_jacobian coarse (by simp [coarse]) (by simp [coarse]) (by simp [coarse]) 1 2 (by norm_num)
    (by have := Real.pi_gt_three; simp [coarse]; linarith) 5 (by norm_num) (some (1, 3)) (by decide) [some bump, none]
  exact ⟨rows, h1, h2, h3 1 rfl⟩

/-- An empty range. -/
example : value coarse true bump (grid 1 2 5) (some (3, 3)) = .error .index :=
  (c84_short coarse bump 0 (some (3, 3))).2 1 2 5 (by simp [coarse]) (by simp [coarse]) (by norm_num) (by norm_num) (by decide)

end Verif.Ripples
