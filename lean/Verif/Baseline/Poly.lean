import Verif.Baseline.Model
import Verif.PeakList.Model
import Mathlib.Analysis.Calculus.Deriv.Add
import Mathlib.Analysis.Calculus.Deriv.Mul
import Mathlib.Algebra.BigOperators.Group.List.Basic
import Mathlib.Algebra.Order.BigOperators.Group.List
import Mathlib.Tactic.Linarith
import Mathlib.Tactic.Ring
import Mathlib.Tactic.FieldSimp

/-!
# C38: polynomial baselines; C54: the other baseline functions
-/

set_option linter.unusedSectionVars false

namespace Verif.Baseline

open Verif.Py

section

variable {K : Type} [Field K]

theorem foldl_poly (ps : List K) (y r : K) :
    ps.foldl (fun y pv => y * r + pv) y = y * r ^ ps.length + polyval ps r := by
  unfold polyval
  induction ps generalizing y with
  | nil => simp
  | cons a ps ih =>
    simp only [List.foldl_cons, List.length_cons]
    rw [ih, ih (0 * r + a)]
    ring

theorem polyval_cons (a : K) (ps : List K) (r : K) :
    polyval (a :: ps) r = a * r ^ ps.length + polyval ps r := by
  conv_lhs => unfold polyval
  rw [List.foldl_cons, foldl_poly]
  ring

theorem polyval_sum (ps : List K) (r : K) :
    polyval ps r = ((List.range ps.length).map (fun d => ps.getD (ps.length - 1 - d) 0 * r ^ d)).sum := by
  induction ps with
  | nil => simp [polyval]
  | cons a ps ih =>
    rw [polyval_cons, ih, List.length_cons, List.range_succ, List.map_append, List.sum_append]
    simp only [List.map_cons, List.map_nil, List.sum_cons, List.sum_nil, add_zero]
    rw [add_comm]
    congr 1
    · congr 1
      apply List.map_congr_left
      intro d hd
      have hd := List.mem_range.1 hd
      have : ps.length + 1 - 1 - d = (ps.length - 1 - d) + 1 := by omega
      rw [this, List.getD_cons_succ]
    · simp

theorem polyNpars_eq (degree : ℤ) (h : 0 ≤ degree) : (polyNpars degree : ℤ) = degree + 1 := by
  unfold polyNpars normDegree; rw [if_neg (by omega)]; omega

/-- The polynomial with the coefficients that the parameter names say: `a_d` belongs to the `d`-th power. -/
def namedValue (degree : ℤ) (pars : List K) (x : K) : K :=
  ((polyDict degree).map (fun e => pars.getD e.2.toNat 0 * x ^ e.1)).sum

theorem polyval_named (degree : ℤ) (pars : List K) (x : K) (h : pars.length = polyNpars degree) :
    polyval pars x = namedValue degree pars x := by
  rw [polyval_sum, h]
  unfold namedValue polyDict
  rw [List.map_map]
  congr 1
  apply List.map_congr_left
  intro d hd
  have hd := List.mem_range.1 hd
  have : ((normDegree degree - (d : ℤ)).toNat) = polyNpars degree - 1 - d := by
    unfold polyNpars at *; omega
  simp only [Function.comp_apply, this]

/-- **C38.** The value of a polynomial baseline is `Σ a_d r^d`, each `a_d` being the parameter of that name;
a negative degree is the zero function without parameters; a wrong number of parameters is ValueError. -/
theorem c38_value (degree : ℤ) (pars r : List K) :
    (pars.length = polyNpars degree → polyValue degree pars r = .ok (r.map (namedValue degree pars))) ∧
    (pars.length ≠ polyNpars degree → polyValue degree pars r = .error .value) ∧
    (degree < 0 → polyNpars degree = 0 ∧ polyValue degree [] r = .ok (r.map (fun _ => 0))) ∧
    (0 ≤ degree → (polyNpars degree : ℤ) = degree + 1 ∧
      ∀ d : ℕ, (d : ℤ) ≤ degree → ((d, degree - d) : ℕ × ℤ) ∈ polyDict degree) := by
  refine ⟨?_, ?_, ?_, ?_⟩
  · intro h
    unfold polyValue
    rw [if_neg (by simpa using h)]
    congr 1
    exact List.map_congr_left (fun x _ => polyval_named degree pars x h)
  · intro h; unfold polyValue; rw [if_pos h]
  · intro h
    have h0 : polyNpars degree = 0 := by unfold polyNpars normDegree; rw [if_pos h]; rfl
    refine ⟨h0, ?_⟩
    unfold polyValue
    rw [h0, if_neg (by simp)]
    rfl
  · intro h
    refine ⟨polyNpars_eq degree h, ?_⟩
    intro d hd
    have := polyNpars_eq degree h
    unfold polyDict
    refine List.mem_map.2 ⟨d, List.mem_range.2 (by omega), ?_⟩
    unfold normDegree
    rw [if_neg (by omega)]

/-- Instance: the value of 2 r² + 3 r + 5 at 1 and 2. -/
example : polyValue 2 [2, 3, 5] [1, 2] = .ok [(10 : ℚ), 19] ∧ namedValue 2 [2, 3, 5] (2 : ℚ) = 19 := by
  constructor <;> decide +kernel

theorem polyJacobian_row (degree : ℤ) (pars r : List K) (free : List Bool) (h1 : pars.length = polyNpars degree)
    (h2 : free.length = polyNpars degree) (i : ℕ) (hi : free[i]? = some true) :
    ∃ rows, polyJacobian degree pars r free = .ok rows ∧ rows.length = polyNpars degree ∧
      rows[i]? = some (some (r.map (· ^ i))) := by
  have hil : i < free.length := by
    by_contra hc
    rw [List.getElem?_eq_none (by omega)] at hi
    simp at hi
  have hnall : ¬ (free.all (fun f => !f) = true) := by
    rw [List.all_eq_true]
    intro h
    have := h true (List.mem_of_getElem? hi)
    simp at this
  unfold polyJacobian
  rw [if_neg (by simpa using h1), if_neg (by simpa using h2), if_neg hnall]
  refine ⟨_, rfl, by simp, ?_⟩
  rw [List.getElem?_map, List.getElem?_range (by omega)]
  simp [hi]

end

theorem polyval_set_deriv (pars : List ℝ) (i : ℕ) (hi : i < pars.length) (x t : ℝ) :
    HasDerivAt (fun v => polyval (pars.set i v) x) (x ^ (pars.length - 1 - i)) t := by
  induction pars generalizing i with
  | nil => simp at hi
  | cons a ps ih =>
    match i with
    | 0 =>
      have e : (fun v => polyval ((a :: ps).set 0 v) x) = fun v => v * x ^ ps.length + polyval ps x := by
        funext v; rw [List.set_cons_zero, polyval_cons]
      rw [e]
      have := ((hasDerivAt_id t).mul_const (x ^ ps.length)).add_const (polyval ps x)
      simpa using this
    | i + 1 =>
      have e : (fun v => polyval ((a :: ps).set (i + 1) v) x) =
          fun v => a * x ^ ps.length + polyval (ps.set i v) x := by
        funext v; rw [List.set_cons_succ, polyval_cons, List.length_set]
      rw [e]
      have := (ih i (by simpa using hi)).const_add (a * x ^ ps.length)
      have e2 : (a :: ps).length - 1 - (i + 1) = ps.length - 1 - i := by simp; omega
      rw [e2]; exact this

/-- **C38, finding.** The Jacobian of a polynomial baseline is wrong: the row of parameter number `i` is `r^i`,
but parameter number `i` is the coefficient of `r^(degree-i)`, and the derivative is that power.  The row is
the derivative only for the middle coefficient of an even degree; for a line, the two rows are
swapped. -/
theorem c38_jacobian_rows_reversed (degree : ℤ) (hd : 0 ≤ degree) (pars r : List ℝ) (free : List Bool)
    (h1 : pars.length = polyNpars degree) (h2 : free.length = polyNpars degree) (i : ℕ)
    (hi : free[i]? = some true) :
    ∃ rows, polyJacobian degree pars r free = .ok rows ∧ rows[i]? = some (some (r.map (· ^ i))) ∧
    (∀ x t, HasDerivAt (fun v => polyval (pars.set i v) x) (x ^ (degree.toNat - i)) t) ∧
    ((∀ x : ℝ, x ^ i = x ^ (degree.toNat - i)) ↔ 2 * (i : ℤ) = degree) := by
  obtain ⟨rows, a, -, b⟩ := polyJacobian_row degree pars r free h1 h2 i hi
  have hil : i < pars.length := by
    by_contra hc
    rw [List.getElem?_eq_none (by omega)] at hi
    simp at hi
  have hn := polyNpars_eq degree hd
  refine ⟨rows, a, b, ?_, ?_⟩
  · intro x t
    have := polyval_set_deriv pars i hil x t
    have e : pars.length - 1 - i = degree.toNat - i := by omega
    rw [e] at this
    exact this
  · constructor
    · intro h
      have h' := h 2
      have := pow_right_injective₀ (by norm_num : (0 : ℝ) < 2) (by norm_num) h'
      omega
    · intro h x
      congr 1
      omega

/-- Instance: a line with both coefficients free; the rows are `1` and `r`, the derivatives `r` and `1`. -/
example : polyJacobian 1 [3, 4] [(5 : ℚ), 6] [true, true] = .ok [some [1, 1], some [5, 6]] := by
  norm_num [polyJacobian, polyNpars, normDegree]
  rfl

/-! ### Estimation -/

section

variable {K : Type} [Field K] [LinearOrder K] [IsStrictOrderedRing K]

/-- The sum of squares that a line through the origin leaves. -/
def sumSq (pts : List (K × K)) (s : K) : K := (pts.map (fun p => (p.2 - s * p.1) ^ 2)).sum

theorem sumSq_eq (pts : List (K × K)) (s : K) : sumSq pts s =
    (pts.map (fun p => p.2 ^ 2)).sum - 2 * s * (pts.map (fun p => p.1 * p.2)).sum +
      s ^ 2 * (pts.map (fun p => p.1 ^ 2)).sum := by
  unfold sumSq
  induction pts with
  | nil => simp
  | cons a pts ih => simp only [List.map_cons, List.sum_cons, ih]; ring

theorem sumSq_r (pts : List (K × K)) : 0 ≤ (pts.map (fun p => p.1 ^ 2)).sum ∧
    ((pts.map (fun p => p.1 ^ 2)).sum = 0 → (pts.map (fun p => p.1 * p.2)).sum = 0) := by
  induction pts with
  | nil => simp
  | cons a pts ih =>
    simp only [List.map_cons, List.sum_cons]
    have := sq_nonneg a.1
    refine ⟨add_nonneg this ih.1, ?_⟩
    intro h
    have h1 : a.1 ^ 2 = 0 := by linarith [ih.1]
    have h2 : (pts.map (fun p => p.1 ^ 2)).sum = 0 := by linarith [ih.1]
    rw [ih.2 h2, pow_eq_zero_iff (by norm_num) |>.1 h1]
    simp

/-- **C38.** Estimation: nothing for a negative degree, 0 for a constant; for a line, intercept 0 and the slope
that fits the lowest tenth of the data (at least one point) best in the sense of least squares; no estimate for
higher degrees. -/
theorem c38_estimate (as : List K → List ℕ) (degree : ℤ) (r y : List K) :
    (1 < degree → polyEstimate as degree r y = .error .notImplemented) ∧
    (degree ≤ 1 → r.length ≠ y.length → polyEstimate as degree r y = .error .value) ∧
    (degree < 0 → r.length = y.length → polyEstimate as degree r y = .ok []) ∧
    (degree = 0 → r.length = y.length → polyEstimate as degree r y = .ok [0]) ∧
    (degree = 1 → r.length = y.length → ∃ slope, polyEstimate as degree r y = .ok [slope, 0] ∧
      ∀ s, sumSq ((cutIdx as y).filterMap (fun i => (r.zip y)[i]?)) slope ≤
        sumSq ((cutIdx as y).filterMap (fun i => (r.zip y)[i]?)) s) := by
  refine ⟨?_, ?_, ?_, ?_, ?_⟩
  · intro h
    unfold polyEstimate normDegree
    rw [if_neg (show ¬ degree < 0 by omega), if_pos h]
  · intro h hl
    unfold polyEstimate
    rw [if_neg (by unfold normDegree; split <;> omega), if_pos hl]
  · intro h hl
    unfold polyEstimate normDegree
    rw [if_pos h, if_neg (by norm_num), if_neg (by simpa using hl), if_pos rfl]
  · intro h hl
    subst h
    simp [polyEstimate, normDegree, hl]
  · intro h hl
    subst h
    refine ⟨lstsq1 ((cutIdx as y).filterMap (fun i => (r.zip y)[i]?)), by simp [polyEstimate, normDegree, hl], ?_⟩
    intro s
    generalize (cutIdx as y).filterMap (fun i => (r.zip y)[i]?) = pts
    rw [sumSq_eq, sumSq_eq]
    unfold lstsq1
    obtain ⟨h1, h2⟩ := sumSq_r pts
    generalize (pts.map (fun p => p.1 * p.2)).sum = b at *
    generalize (pts.map (fun p => p.1 ^ 2)).sum = a at *
    by_cases ha : a = 0
    · rw [h2 ha, ha]; simp
    · have hpos : 0 < a := lt_of_le_of_ne h1 (Ne.symm ha)
      have : 0 ≤ a * (s - b / a) ^ 2 := mul_nonneg h1 (sq_nonneg _)
      have e : a * (s - b / a) ^ 2 = s ^ 2 * a - 2 * s * b + (b / a) * b := by
        field_simp
        ring
      have e2 : (b / a) ^ 2 * a = (b / a) * b := by field_simp
      rw [e] at this
      have e3 : 2 * (b / a) * b = (b / a) * b + (b / a) * b := by ring
      linarith

/-- The points used are the lowest ones. -/
theorem c38_lowest_points (as : List K → List ℕ) (has : PeakList.SortsKeys as) (y : List K) (i j : ℕ) (a b : K)
    (hi : i ∈ cutIdx as y) (hj : j ∉ cutIdx as y) (ha : y[i]? = some a) (hb : y[j]? = some b) :
    a ≤ b ∧ (cutIdx as y).length = min (max (y.length / 10) 1) y.length := by
  obtain ⟨hp, hs⟩ := has y
  have hjr : j < y.length := by
    by_contra hc
    rw [List.getElem?_eq_none (by omega)] at hb
    simp at hb
  have hjm : j ∈ as y := hp.symm.subset (List.mem_range.2 hjr)
  unfold cutIdx at hi hj ⊢
  constructor
  · obtain ⟨p, hp1, hp2⟩ := List.getElem_of_mem hi
    obtain ⟨q, hq1, hq2⟩ := List.getElem_of_mem hjm
    have hlt : p < q := by
      by_contra hc
      apply hj
      rw [List.length_take] at hp1
      have : ((as y).take (max (y.length / 10) 1))[q]'(by rw [List.length_take]; omega) = j := by
        rw [List.getElem_take]; exact hq2
      rw [← this]
      exact List.getElem_mem _
    refine hs p q i j a b hlt ?_ ?_ ha hb
    · rw [List.getElem_take] at hp2
      rw [List.length_take] at hp1
      rw [List.getElem?_eq_getElem (by omega), hp2]
    · rw [List.getElem?_eq_getElem hq1, hq2]
  · rw [List.length_take, hp.length_eq, List.length_range]

end

/-! ### C54: Arbitrary and FromSequence -/

/-- **C54.** `Arbitrary(n, ...)` passes parameters on to the user's functions exactly if their number is right,
and estimates exactly if the user's routine does not raise. -/
theorem c54_arbitrary {K J : Type} (n : ℕ) (valuef : List K → List K → Res (List K))
    (jac : List K → List K → List Bool → Res J) (est : List K → List K → Res (List K)) (pars r y : List K)
    (free : List Bool) :
    (pars.length = n → arbValue n valuef pars r = valuef pars r) ∧
    (pars.length ≠ n → arbValue n valuef pars r = .error .value) ∧
    (pars.length = n → free.length = n → arbJacobian n (some jac) pars r free = jac pars r free) ∧
    (pars.length ≠ n ∨ free.length ≠ n → arbJacobian n (some jac) pars r free = .error .value) ∧
    (∀ p, arbEstimate (some est) r y = .ok p ↔ est r y = .ok p) ∧
    (arbEstimate (K := K) none r y = .error .notImplemented) ∧
    (∀ e, est r y = .error e → arbEstimate (some est) r y = .error .estimation) := by
  refine ⟨?_, ?_, ?_, ?_, ?_, rfl, ?_⟩
  · intro h; unfold arbValue; rw [if_neg (by simpa using h)]
  · intro h; unfold arbValue; rw [if_pos h]
  · intro h1 h2; unfold arbJacobian; simp [h1, h2]
  · intro h
    unfold arbJacobian
    simp only
    by_cases h1 : pars.length = n
    · rcases h with h | h
      · exact absurd h1 h
      · rw [if_neg (by simpa using h1), if_pos h]
    · rw [if_pos h1]
  · intro p
    unfold arbEstimate
    simp only
    generalize est r y = v
    cases v <;> simp
  · intro e h
    unfold arbEstimate
    simp [h]

/-- **C54, finding.** A function declared with `n` parameters has `n + 1` of them, so calling its value with `n`
parameters is always ValueError. -/
theorem c54_one_parameter_too_many {K : Type} (n : ℕ) (valuef : List K → List K → Res (List K))
    (pars r : List K) (h : pars.length = n) :
    ∃ k, arbNpars n = .ok k ∧ k = n + 1 ∧ arbValue k valuef pars r = .error .value := by
  refine ⟨n + 1, ?_, rfl, ?_⟩
  · unfold arbNpars; rw [if_neg (by omega)]; simp
  · unfold arbValue; rw [if_pos (by omega)]

/-- **C54, finding.** The documented leniency — a function without Jacobian acts as if it had one when no
parameter is free — never works: it is AttributeError for all parameters. -/
theorem c54_no_jacobian {K J : Type} (n : ℕ) (pars r : List K) (free : List Bool) :
    arbJacobian (J := J) n none pars r free = .error .attribute := rfl

/-- **C54.** `FromSequence` accepts: one positional argument (a file), two positional arguments, or keywords —
either `file` without `x` and `y`, or `x` and `y` without `file`.  Anything else is TypeError.  Mixtures of
positional and keyword arguments are refused; other keywords next to the known ones are not noticed. -/
theorem c54_signature (nargs : ℕ) (kwds : List String) :
    (signature nargs kwds = .error .type ↔
      ¬ (nargs = 1 ∧ kwds = []) ∧ ¬ (nargs = 2 ∧ kwds = []) ∧
      ¬ (nargs = 0 ∧ ((("x" ∈ kwds ∧ "y" ∈ kwds) ∧ "file" ∉ kwds) ∨ ("file" ∈ kwds ∧ "x" ∉ kwds ∧ "y" ∉ kwds)))) ∧
    (signature nargs kwds = .ok .lists ↔
      (nargs = 2 ∧ kwds = []) ∨ (nargs = 0 ∧ "x" ∈ kwds ∧ "y" ∈ kwds ∧ "file" ∉ kwds)) := by
  unfold signature
  by_cases h1 : nargs = 1 ∧ kwds = []
  · rw [if_pos h1]
    constructor
    · simp [h1]
    · constructor
      · intro h; simp at h
      · rintro (⟨h, -⟩ | ⟨h, -⟩) <;> omega
  rw [if_neg h1]
  by_cases h2 : nargs = 0 ∧ "file" ∈ kwds ∧ "x" ∉ kwds ∧ "y" ∉ kwds
  · rw [if_pos h2]
    constructor
    · constructor
      · intro h; simp at h
      · rintro ⟨-, -, h⟩; exact absurd ⟨h2.1, Or.inr h2.2⟩ h
    · constructor
      · intro h; simp at h
      · rintro (⟨h, -⟩ | ⟨-, h, -⟩)
        · omega
        · exact absurd h h2.2.2.1
  rw [if_neg h2]
  by_cases h3 : nargs = 2 ∧ kwds = []
  · rw [if_pos h3]
    simp [h3]
  rw [if_neg h3]
  by_cases h4 : nargs = 0 ∧ "x" ∈ kwds ∧ "y" ∈ kwds ∧ "file" ∉ kwds
  · rw [if_pos h4]
    simp [h4]
  rw [if_neg h4]
  constructor
  · simp only [true_iff]
    refine ⟨h1, h3, ?_⟩
    rintro ⟨a, b | b⟩
    · exact h4 ⟨a, b.1.1, b.1.2, b.2⟩
    · exact h2 ⟨a, b⟩
  · simp only [reduceCtorEq, false_iff]
    rintro (h | h)
    · exact h3 h
    · exact h4 h

/-- **C54, finding.** Reading the sequences from a file loses the first character of the data: a file that starts
with the number 12 is read as if it started with 2. -/
theorem c54_first_character_lost {K : Type} (num : List Char → Option K) (c : Char) (rest : List Char)
    (hc : c ≠ '#') (c' : Char) (hc' : c' ≠ '#') :
    readxy num (c :: rest) = readxy num (c' :: rest) := by
  have h : ∀ d : Char, d ≠ '#' → headerEnd true 0 (d :: rest) = some 1 := by
    intro d hd; unfold headerEnd; rw [if_pos hd]
  unfold readxy
  rw [h c hc, h c' hc']
  rfl

/-- Instance: the digits of "12 3" and of a file with a comment. -/
example : readxy (fun s => some (s.map Char.toNat)) "12 3\n4 5\n".toList = .ok [([50], [51]), ([52], [53])] ∧
    readxy (fun s => some (s.map Char.toNat)) "#1\n12 3".toList = .ok [([50], [51])] := by
  decide +kernel

end Verif.Baseline
