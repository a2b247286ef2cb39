import Verif.Pdf.QmaxModel
import Verif.Ripples.Model
import Mathlib.Tactic.Ring
import Mathlib.Tactic.FieldSimp
import Mathlib.Tactic.Linarith

/-!
# C106: a PDF in other units — the functions of `pdfpeakextraction.py` and `terminationripples.py`

Coordinates are multiplied by `a`, intensities by `k`, and a wave vector (`qmax`) is divided by `a`.
-/

set_option linter.unusedSectionVars false

namespace Verif.Pdf

open Verif.Py

variable {a k : ℝ}

/-- Every value times `c`. -/
def times (c : ℝ) (l : List ℝ) : List ℝ := l.map (fun v => c * v)

theorem times_length (c : ℝ) (l : List ℝ) : (times c l).length = l.length := by simp [times]

theorem head_times (c : ℝ) (l : List ℝ) : (times c l).head? = l.head?.map (fun v => c * v) := by simp [times]

theorem last_times (c : ℝ) (l : List ℝ) : (times c l).getLast? = l.getLast?.map (fun v => c * v) := by simp [times]

theorem getD_times (c : ℝ) (l : List ℝ) (i : ℕ) : (times c l).getD i 0 = c * l.getD i 0 := by
  simp only [times, List.getD_eq_getElem?_getD, List.getElem?_map]
  cases l[i]? <;> simp

theorem errorscale_units (ha : 0 < a) (q : ℝ) (n s : Bool) (dr : ℝ) : errorscale (q / a) n s (a * dr) = errorscale q n s dr := by
  unfold errorscale
  have h1 : q / a > 0 ↔ q > 0 := div_pos_iff_of_pos_right ha
  have h2 : Real.pi / (q / a) / (a * dr) = Real.pi / q / dr := by
    rw [div_div_eq_mul_div, mul_comm Real.pi a, mul_div_assoc, mul_div_mul_left _ _ ha.ne']
  simp only [h1, h2]

theorem arange_units (ha : 0 < a) (s t d : ℝ) : arange (a * s) (a * t) (a * d) = times a (arange s t d) := by
  unfold arange times
  rw [← mul_sub, mul_div_mul_left _ _ ha.ne', List.map_map]
  apply List.map_congr_left
  intro i _
  simp only [Function.comp]
  ring

theorem interp_units (ha : 0 < a) (v : ℝ) : ∀ x y : List ℝ, interp (a * v) (times a x) (times k y) = k * interp v x y
  | x0 :: x1 :: xs, y0 :: y1 :: ys => by
    have ih := interp_units ha v (x1 :: xs) (y1 :: ys)
    simp only [times, List.map_cons] at ih ⊢
    simp only [interp, mul_le_mul_iff_right₀ ha, mul_lt_mul_iff_right₀ ha]
    rw [ih]
    split
    · rfl
    split
    · rw [← mul_sub, ← mul_sub, ← mul_sub]
      have : k * (y1 - y0) / (a * (x1 - x0)) = k / a * ((y1 - y0) / (x1 - x0)) := by rw [mul_div_mul_comm]
      rw [this]
      field_simp
    · rfl
  | [], y0 :: ys => by simp [interp, times]
  | [x], y0 :: ys => by simp [interp, times]
  | x0 :: x1 :: xs, [y0] => by simp [interp, times]
  | [], [] => by simp [interp, times]
  | [x], [] => by simp [interp, times]
  | x0 :: x1 :: xs, [] => by simp [interp, times]

theorem resampleLoop_units (ha : 0 < a) (dr shift v : ℝ) : ∀ (ys : List ℝ) (i : ℕ) (acc : ℝ),
    resampleLoop (a * dr) shift (a * v) i (times k ys) (k * acc) = k * resampleLoop dr shift v i ys acc
  | [], _, _ => rfl
  | y :: ys, i, acc => by
    have ih := resampleLoop_units ha dr shift v ys (i + 1) (acc + y * sinc (v / dr - (i + shift)))
    simp only [times, List.map_cons] at ih ⊢
    simp only [resampleLoop]
    rw [mul_div_mul_left _ _ ha.ne', ← ih]
    congr 1
    ring

theorem resample_units (ha : 0 < a) (r y new : List ℝ) : resample (times a r) (times k y) (times a new) = (resample r y new).map (times k) := by
  unfold resample
  rw [head_times, last_times, times_length]
  cases hh : r.head? with
  | none => rfl
  | some p =>
    cases hl : r.getLast? with
    | none => rfl
    | some q =>
      cases new with
      | nil => rfl
      | cons n0 ns =>
        simp only [Option.map_some, times, List.map_cons]
        split
        · rfl
        · simp only [Except.map, List.map_map, Except.ok.injEq]
          have e1 : (a * q - a * p) / ((r.length : ℝ) - 1) = a * ((q - p) / ((r.length : ℝ) - 1)) := by rw [← mul_sub, mul_div_assoc]
          have e2 : ∀ d : ℝ, a * p / (a * d) = p / d := fun d => mul_div_mul_left _ _ ha.ne'
          have e3 : ∀ v : ℝ, a * v * 0 = k * (v * 0) := fun v => by ring
          have main : ∀ v : ℝ, resampleLoop ((a * q - a * p) / ((r.length : ℝ) - 1)) (a * p / ((a * q - a * p) / ((r.length : ℝ) - 1))) (a * v) 0
              (y.map (fun v => k * v)) (a * v * 0) = k * resampleLoop ((q - p) / ((r.length : ℝ) - 1)) (p / ((q - p) / ((r.length : ℝ) - 1))) v 0 y (v * 0) := by
            intro v
            rw [e1, e2, e3]
            exact resampleLoop_units ha _ _ v y 0 _
          simp only [times, List.map_cons, List.map_map]
          exact List.cons_eq_cons.2 ⟨main n0, List.map_congr_left (fun v _ => main v)⟩

/-! ### `find_qmax` -/

theorem linspace_units (p q : ℝ) (n : ℕ) : linspace (a * p) (a * q) n = times a (linspace p q n) := by
  unfold linspace times
  rw [List.map_map]
  apply List.map_congr_left
  intro i _
  simp only [Function.comp]
  rw [← mul_sub]
  ring

theorem fft_units (P : ℕ) (s : List ℝ) : Ripples.fft P (times k s) = (Ripples.fft P s).map (fun z => (k : ℂ) * z) := by
  unfold Ripples.fft
  rw [List.map_map, times_length]
  apply List.map_congr_left
  intro i _
  simp only [Function.comp, Finset.mul_sum]
  apply Finset.sum_congr rfl
  intro j _
  rw [getD_times]
  push_cast
  ring

theorem halfImag_units (s : List ℝ) : halfImag (times k s) = times k (halfImag s) := by
  unfold halfImag
  rw [times_length, fft_units]
  unfold times
  rw [List.map_take, List.map_map, List.map_map]
  congr 2
  funext z
  simp

theorem leftAt_units (d : ℕ → ℝ) : ∀ i, leftAt (fun j => k * d j) i = ((leftAt d i).1, k * (leftAt d i).2.1, k ^ 2 * (leftAt d i).2.2)
  | 0 => by simp [leftAt]
  | i + 1 => by
    have ih := leftAt_units d i
    simp only [leftAt, ih, Prod.mk.injEq, true_and]
    constructor <;> ring

theorem rightStep_units (d : ℕ → ℝ) (i : ℕ) (n : ℕ) (mean m2 : ℝ) :
    rightStep (fun j => k * d j) i (n, k * mean, k ^ 2 * m2) =
      ((rightStep d i (n, mean, m2)).1, k * (rightStep d i (n, mean, m2)).2.1, k ^ 2 * (rightStep d i (n, mean, m2)).2.2) := by
  simp only [rightStep, Prod.mk.injEq, true_and]
  constructor <;> ring

theorem rightAt_units (d : ℕ → ℝ) : ∀ i, rightAt (fun j => k * d j) i = ((rightAt d i).1, k * (rightAt d i).2.1, k ^ 2 * (rightAt d i).2.2)
  | 0 => by
    simp only [rightAt, Prod.mk.injEq, true_and]
    constructor <;> ring
  | i + 1 => by
    have ih := rightAt_units d i
    simp only [rightAt]
    rw [ih, rightStep_units]

theorem getD_fun_times (k : ℝ) (f : List ℝ) : (fun i => (times k f).getD i 0) = fun i => k * f.getD i 0 := funext (getD_times k f)

theorem stdratio_units (hk : 0 < k) (f : List ℝ) : stdratio (times k f) = stdratio f := by
  unfold stdratio
  rw [times_length]
  simp only [getD_fun_times]
  split
  · rfl
  · congr 1
    apply List.map_congr_left
    intro i _
    rw [leftAt_units, rightAt_units]
    simp only
    rw [mul_div_mul_left _ _ (pow_pos hk 2).ne']

theorem degenerate_units (hk : 0 < k) (f : List ℝ) : Degenerate (times k f) ↔ Degenerate f := by
  unfold Degenerate
  rw [times_length]
  simp only [getD_fun_times]
  constructor
  · rintro ⟨i, h1, h2⟩
    rw [rightAt_units] at h2
    exact ⟨i, h1, (mul_eq_zero.1 h2).resolve_left (pow_pos hk 2).ne'⟩
  · rintro ⟨i, h1, h2⟩
    refine ⟨i, h1, ?_⟩
    rw [rightAt_units]
    simp only [h2, mul_zero]

theorem lastPeak_units (hk : 0 < k) {nan nan' : List ℝ → ℕ} (hn : ∀ f, nan' (times k f) = nan f) (f dder : List ℝ) :
    lastPeak nan' (times k f) dder = lastPeak nan f dder := by
  unfold lastPeak
  by_cases h : dder = []
  · rw [if_pos h, if_pos h]
  rw [if_neg h, if_neg h]
  by_cases hd : Degenerate f
  · rw [if_pos hd, if_pos ((degenerate_units hk f).2 hd), hn]
  · rw [if_neg hd, if_neg (fun e => hd ((degenerate_units hk f).1 e))]

theorem findQmax_units (ha : 0 < a) (hk : 0 < k) {nan nan' : List ℝ → ℕ} (hn : ∀ f, nan' (times k f) = nan f) (r y : List ℝ) :
    findQmax nan' (times a r) (times k y) = (findQmax nan r y).map (fun q => (q.1 / a, q.2 / a)) := by
  unfold findQmax
  rw [head_times, last_times]
  simp only [times_length]
  split
  · rfl
  cases r.head? with
  | none => rfl
  | some p =>
    cases r.getLast? with
    | none => rfl
    | some q =>
      simp only [Option.map_some]
      split
      · rfl
      · rw [linspace_units, resample_units ha]
        cases resample r y (linspace p q (2 * r.length)) with
        | error e => rfl
        | ok newY =>
          show (stdratio (halfImag (times k newY)) >>= _) = Except.map _ (stdratio (halfImag newY) >>= _)
          rw [halfImag_units, stdratio_units hk]
          cases stdratio (halfImag newY) with
          | error e => rfl
          | ok ratio =>
            show (lastPeak nan' (times k (halfImag newY)) (negDiff2 ratio) >>= _) = Except.map _ (lastPeak nan (halfImag newY) (negDiff2 ratio) >>= _)
            rw [lastPeak_units hk hn]
            cases lastPeak nan (halfImag newY) (negDiff2 ratio) with
            | error e => rfl
            | ok i =>
              show Except.ok _ = Except.ok _
              simp only [times_length]
              have e1 : (times a (linspace p q (2 * r.length))).getLastD 0 = a * (linspace p q (2 * r.length)).getLastD 0 := by
                rw [List.getLastD_eq_getLast?, List.getLastD_eq_getLast?, last_times]
                cases (linspace p q (2 * r.length)).getLast? <;> simp
              have e2 : ∀ c n m : ℝ, c / (n * (a * m)) = c / (n * m) / a := fun c n m => by rw [div_div]; ring_nf
              have e3 : ∀ x y z : ℝ, (a * x - a * y) / z = a * ((x - y) / z) := fun x y z => by rw [← mul_sub, mul_div_assoc]
              rw [e1, e3, e3, e2, e2, div_mul_eq_mul_div]

end Verif.Pdf

namespace Verif.Ripples

open Verif.Py Verif.Pdf

variable {a k : ℝ}

/-- `TerminationRipples` in the new units: `qmax` divided by `a`; `extension` and `supersample` are numbers. -/
noncomputable def Rip.inUnits (a : ℝ) (R : Rip) : Rip := ⟨R.qmax / a, R.extension, R.supersample⟩

theorem ifft_units (l : List ℂ) : ifft (l.map (fun z => (k : ℂ) * z)) = (ifft l).map (fun z => (k : ℂ) * z) := by
  unfold ifft
  rw [List.map_map, List.length_map]
  apply List.map_congr_left
  intro n _
  simp only [Function.comp]
  rw [← mul_div_assoc, Finset.mul_sum]
  congr 1
  apply Finset.sum_congr rfl
  intro j _
  have : (l.map (fun z => (k : ℂ) * z)).getD j 0 = k * l.getD j 0 := by
    simp only [List.getD_eq_getElem?_getD, List.getElem?_map]
    cases l[j]? <;> simp
  rw [this]
  ring

theorem zeroSlice_units (l : List ℂ) (lo hi : ℤ) : zeroSlice (l.map (fun z => (k : ℂ) * z)) lo hi = (zeroSlice l lo hi).map (fun z => (k : ℂ) * z) := by
  unfold zeroSlice
  rw [List.length_map]
  refine List.ext_getElem (by simp) (fun i h1 h2 => ?_)
  simp only [List.getElem_mapIdx, List.getElem_map, mul_ite, mul_zero]

theorem lowidx_units (ha : 0 < a) (q : ℝ) (P : ℕ) (d : ℝ) : lowidx (q / a) P (a * d) = lowidx q P d := by
  unfold lowidx dq
  congr 1
  rw [div_div_eq_mul_div, div_div_eq_mul_div]
  congr 1
  field_simp

theorem cutFreq_units (ha : 0 < a) (q : ℝ) (s : List ℝ) (d : ℝ) : cutFreq (q / a) (times k s) (a * d) = (cutFreq q s d).map (times k) := by
  unfold cutFreq
  have h0 : times k s = [] ↔ s = [] := by simp [times]
  by_cases h : s = []
  · rw [if_pos h, if_pos (h0.2 h)]
    rfl
  · rw [if_neg h, if_neg (fun e => h (h0.1 e))]
    simp only [times_length, lowidx_units ha, fft_units, zeroSlice_units, ifft_units, Except.map]
    congr 1
    rw [← List.map_take, List.map_map]
    unfold times
    rw [List.map_map]
    congr 1
    funext z
    simp

theorem extendGrid_units (ha : 0 < a) (R : Rip) (r : List ℝ) (d : ℝ) :
    extendGrid (R.inUnits a) (times a r) (a * d) = (extendGrid R r d).map (fun g => (times a g.1, g.2)) := by
  unfold extendGrid
  rw [head_times, last_times]
  cases r.head? with
  | none => rfl
  | some p =>
    cases r.getLast? with
    | none => rfl
    | some q =>
      simp only [Option.map_some, Except.map, Rip.inUnits]
      have e : ∀ c : ℝ, c / (R.qmax / a) = a * (c / R.qmax) := fun c => by rw [div_div_eq_mul_div]; ring
      have e1 : a * p - a * d = a * (p - d) := by ring
      have e2 : ∀ c, max 0 (a * p - a * c - a * d) = a * max 0 (p - c - d) := fun c => by
        rw [mul_max_of_nonneg _ _ ha.le, mul_zero]; congr 1; ring
      have e3 : -(a * d) = a * -d := by ring
      have e4 : a * q + a * d = a * (q + d) := by ring
      have e5 : ∀ c, a * q + a * c + a * d = a * (q + c + d) := fun c => by ring
      rw [e, e1, e2, e3, e4, e5, arange_units ha, arange_units ha]
      have e6 : ∀ l : List ℝ, (times a l).reverse = times a l.reverse := fun l => by simp [times]
      have e7 : ∀ l m : List ℝ, times a l ++ times a m = times a (l ++ m) := fun l m => by simp [times]
      rw [e6, e7, e7]
      simp only [times_length]

theorem drSuper_units (ha : 0 < a) (R : Rip) : drSuper (R.inUnits a) = a * drSuper R := by
  unfold drSuper Rip.inUnits
  simp only
  rw [← mul_div_assoc, div_div_eq_mul_div]
  ring

theorem rippled_units (ha : 0 < a) (R : Rip) {f f' : ℝ → ℝ} (hf : ∀ x, f' (a * x) = k * f x) (rp : List ℝ) (d : ℝ) :
    rippled (R.inUnits a) f' (times a rp) (a * d) = (rippled R f rp d).map (times k) := by
  unfold rippled
  rw [extendGrid_units ha]
  cases extendGrid R rp d with
  | error e => rfl
  | ok g =>
    show (cutFreq (R.qmax / a) ((times a g.1).map f') (a * d) >>= _) = Except.map _ (cutFreq R.qmax (g.1.map f) d >>= _)
    have : (times a g.1).map f' = times k (g.1.map f) := by
      unfold times
      rw [List.map_map, List.map_map]
      exact List.map_congr_left (fun x _ => hf x)
    rw [this, cutFreq_units ha]
    cases cutFreq R.qmax (g.1.map f) d with
    | error e => rfl
    | ok v =>
      show Except.ok _ = Except.ok _
      congr 1
      unfold getSlice times
      simp only [List.length_map, List.map_take, List.map_drop]

theorem every_times {α β : Type} (g : α → β) (n : ℕ) (l : List α) : every n (l.map g) = (every n l).map g := by
  unfold every
  rw [List.length_map, List.map_filterMap]
  congr 1
  funext i
  rw [List.getElem?_map]

theorem step_units (r : List ℝ) : step (times a r) = (step r).map (fun d => a * d) := by
  unfold step
  rw [head_times, last_times, times_length]
  cases r.head? with
  | none => rfl
  | some p =>
    cases r.getLast? with
    | none => rfl
    | some q => simp only [Option.map_some, Except.map, ← mul_sub, mul_div_assoc]

theorem segments_units (ha : 0 < a) (R : Rip) (r : List ℝ) (d : ℝ) : segments (R.inUnits a) (times a r) (a * d) = segments R r d := by
  unfold segments
  rw [times_length, drSuper_units ha, mul_div_mul_left _ _ ha.ne']

theorem refined_units (ha : 0 < a) (rp : List ℝ) (n : ℕ) (d : ℝ) : refined (times a rp) n (a * d) = (refined rp n d).map (times a) := by
  unfold refined
  rw [head_times, last_times]
  split
  · cases rp.head? with
    | none => rfl
    | some p =>
      cases rp.getLast? with
      | none => rfl
      | some q =>
        simp only [Option.map_some, Except.map]
        have : a * q + a * d / 2 = a * (q + d / 2) := by ring
        rw [this, arange_units ha]
  · rfl

theorem getSlice_times (c : ℝ) (l : List ℝ) (s : Option (ℕ × ℕ)) : getSlice (times c l) s = times c (getSlice l s) := by
  unfold getSlice times
  simp only [List.length_map, List.map_take, List.map_drop]

theorem setSlice_units {a k : ℝ} (r v : List ℝ) (rng : Option (ℕ × ℕ)) :
    setSlice ((times a r).map (· * 0)) rng (times k v) = (setSlice (r.map (· * 0)) rng v).map (times k) := by
  have : (times a r).map (· * 0) = times k (r.map (· * 0)) := by
    unfold times
    rw [List.map_map, List.map_map]
    exact List.map_congr_left (fun x _ => by simp)
  rw [this]
  unfold setSlice
  simp only [times_length]
  split
  · simp only [Except.map]
    congr 1
    simp [times]
  · rfl

theorem value_units (ha : 0 < a) (R : Rip) (own : Bool) {f f' : ℝ → ℝ} (hf : ∀ x, f' (a * x) = k * f x) (r : List ℝ) (rng : Option (ℕ × ℕ)) :
    value (R.inUnits a) own f' (times a r) rng = (value R own f r rng).map (times k) := by
  unfold value
  cases own with
  | false => rfl
  | true =>
    simp only [if_true]
    rw [step_units]
    cases step r with
    | error e => rfl
    | ok d =>
      show (segments (R.inUnits a) (times a r) (a * d) >>= _) = Except.map _ (segments R r d >>= _)
      rw [segments_units ha]
      cases segments R r d with
      | error e => rfl
      | ok n =>
        show (refined (getSlice (times a r) rng) n (a * d / n) >>= _) = Except.map _ (refined (getSlice r rng) n (d / n) >>= _)
        rw [getSlice_times, mul_div_assoc, refined_units ha]
        cases refined (getSlice r rng) n (d / n) with
        | error e => rfl
        | ok rp =>
          show (rippled (R.inUnits a) f' (times a rp) (a * (d / n)) >>= _) = Except.map _ (rippled R f rp (d / n) >>= _)
          rw [rippled_units ha R hf]
          cases rippled R f rp (d / n) with
          | error e => rfl
          | ok v =>
            show setSlice ((times a r).map (· * 0)) rng (every n (times k v)) = Except.map _ (setSlice (r.map (· * 0)) rng (every n v))
            have : every n (times k v) = times k (every n v) := every_times _ n v
            rw [this, setSlice_units]

theorem valueAt_units (ha : 0 < a) (R : Rip) (own : Bool) {f f' : ℝ → ℝ} (hf : ∀ x, f' (a * x) = k * f x) (x : ℝ) :
    valueAt (R.inUnits a) own f' (a * x) = (valueAt R own f x).map (fun v => k * v) := by
  unfold valueAt
  cases own with
  | false => rfl
  | true =>
    simp only [if_true]
    have := rippled_units ha R hf [x] (drSuper R)
    rw [drSuper_units ha]
    have e : times a [x] = [a * x] := rfl
    rw [e] at this
    rw [this]
    cases rippled R f [x] (drSuper R) with
    | error e => rfl
    | ok v => cases v <;> rfl

theorem jacStep_units (ha : 0 < a) (R : Rip) (r : List ℝ) : jacStep (R.inUnits a) (times a r) = (jacStep R r).map (fun d => a * d) := by
  unfold jacStep
  rw [times_length, drSuper_units ha, step_units]
  split <;> rfl

/-- The derivatives by the parameters in the new units: derivative `i` is multiplied by `c i` (the unit of intensity over that of parameter `i`). -/
noncomputable def slopes (a : ℝ) (c : ℕ → ℝ) (d : List (Option (ℝ → ℝ))) : List (Option (ℝ → ℝ)) :=
  d.mapIdx (fun i f => f.map (fun g x => c i * g (a⁻¹ * x)))

theorem jacRow_units (ha : 0 < a) (R : Rip) (r : List ℝ) (rng : Option (ℕ × ℕ)) (dr c : ℝ) (f : Option (ℝ → ℝ)) :
    jacRow (R.inUnits a) (times a r) rng (a * dr) (f.map (fun g x => c * g (a⁻¹ * x))) = (jacRow R r rng dr f).map (Option.map (times c)) := by
  cases f with
  | none => rfl
  | some g =>
    unfold jacRow
    simp only [Option.map_some]
    rw [getSlice_times, rippled_units (k := c) (f := g) ha R (fun x => by rw [inv_mul_cancel_left₀ ha.ne'])]
    cases rippled R g (getSlice r rng) dr with
    | error e => rfl
    | ok v =>
      show (setSlice ((times a r).map (· * 0)) rng (times c v) >>= _) = Except.map _ (setSlice (r.map (· * 0)) rng v >>= _)
      rw [setSlice_units]
      cases setSlice (r.map (· * 0)) rng v <;> rfl

theorem jacobian_units (ha : 0 < a) (R : Rip) (own : Bool) (c : ℕ → ℝ) (d : List (Option (ℝ → ℝ))) (r : List ℝ) (rng : Option (ℕ × ℕ)) :
    jacobian (R.inUnits a) own (slopes a c d) (times a r) rng = (jacobian R own d r rng).map (fun rows => rows.mapIdx (fun i row => row.map (times (c i)))) := by
  unfold jacobian
  cases own with
  | false => rfl
  | true =>
    simp only [if_true]
    rw [jacStep_units ha]
    cases jacStep R r with
    | error e => rfl
    | ok dr =>
      show (extendGrid (R.inUnits a) (getSlice (times a r) rng) (a * dr) >>= _) = Except.map _ (extendGrid R (getSlice r rng) dr >>= _)
      rw [getSlice_times, extendGrid_units ha]
      cases extendGrid R (getSlice r rng) dr with
      | error e => rfl
      | ok g =>
        show (slopes a c d).mapM (jacRow (R.inUnits a) (times a r) rng (a * dr)) = Except.map _ (d.mapM (jacRow R r rng dr))
        unfold slopes
        induction d generalizing c with
        | nil => rfl
        | cons f d ih =>
          simp only [List.mapIdx_cons, List.mapM_cons]
          rw [jacRow_units ha, ih (fun i => c (i + 1))]
          cases jacRow R r rng dr f with
          | error e => rfl
          | ok row =>
            show ((Except.map _ (d.mapM (jacRow R r rng dr))) >>= _) = Except.map _ (d.mapM (jacRow R r rng dr) >>= _)
            cases d.mapM (jacRow R r rng dr) with
            | error e => rfl
            | ok rows => simp only [Except.map, bind, Except.bind, pure, Except.pure, List.mapIdx_cons]

end Verif.Ripples
