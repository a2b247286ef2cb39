import Verif.Plot.Model

/-!
# C87: the insets with the positions of peaks
-/

set_option linter.unusedSectionVars false

namespace Verif.Plot

open Verif.Py

variable {K : Type} [Field K] [LinearOrder K] [IsStrictOrderedRing K]

/-! ### Specification -/

/-- The line segments drawn for a sequence of points: between neighbours, unless one of them is missing. -/
def segs : List (Pt K) → List ((K × K) × (K × K))
  | (some a, b) :: (some c, d) :: l => ((a, b), (c, d)) :: segs ((some c, d) :: l)
  | _ :: l => segs l
  | [] => []

theorem segs_bars (base height : K) (ps : List K) :
    segs (bars base height ps) = ps.map (fun p => ((p, base), (p, base + height))) := by
  induction ps with
  | nil => simp [bars, segs]
  | cons p ps ih => simp [bars, segs, ih]

/-- **C87.** The comparison shows one vertical line at each extracted position between `pmin` and `pmax`, from the base
upwards, one at each ideal position downwards, no line between positions, all within the limits of the axis (for a
positive and a negative height), and no base below the lines if there are no ideal positions. -/
theorem c87_compare (found : List K) (ip : Option (List K)) (base yideal yext : K) (pmin pmax : Option K) :
    let c := comparepositions found ip base yideal yext pmin pmax
    segs c.found = (found.filter (fun p => decide ((∀ a, pmin = some a → a ≤ p) ∧ ∀ b, pmax = some b → p ≤ b))).map
      (fun p => ((p, base), (p, base + yext))) ∧
    c.ideal.map segs = ip.map (fun l => l.map (fun p => ((p, base), (p, base + yideal)))) ∧
    (0 ≤ yext → yideal ≤ 0 → (∀ q ∈ c.found, c.lo ≤ q.2 ∧ q.2 ≤ c.hi) ∧ ∀ l, c.ideal = some l → ∀ q ∈ l, c.lo ≤ q.2 ∧ q.2 ≤ c.hi) ∧
    (ip = none → c.lo = base) := by
  intro c
  have hb : ∀ (h : K) (l : List K) (q : Pt K), q ∈ bars base h l → q.2 = base ∨ q.2 = base + h := by
    intro h l
    induction l with
    | nil => intro q hq; simp [bars] at hq
    | cons p l ih =>
      intro q hq
      simp only [bars, List.mem_cons] at hq
      rcases hq with rfl | rfl | rfl | hq
      · exact Or.inl rfl
      · exact Or.inr rfl
      · exact Or.inl rfl
      · exact ih q hq
  refine ⟨?_, ?_, ?_, ?_⟩
  · simp only [c, comparepositions, segs_bars, Option.mem_def]
  · simp only [c, comparepositions, Option.map_map]
    cases ip with
    | none => rfl
    | some l => simp [segs_bars]
  · intro h1 h2
    have hlo : c.lo ≤ base := by
      simp only [c, comparepositions]
      split
      · linarith
      · exact le_rfl
    have hhi : c.hi = base + yext := rfl
    refine ⟨?_, ?_⟩
    · intro q hq
      rcases hb yext _ q hq with e | e <;> rw [e, hhi] <;> constructor <;> linarith
    · intro l hl q hq
      simp only [c, comparepositions] at hl
      cases ip with
      | none => simp at hl
      | some l' =>
        simp only [Option.map_some, Option.some.injEq] at hl
        subst hl
        have hlo' : c.lo = base + yideal := by simp [c, comparepositions]
        rcases hb yideal _ q hq with e | e <;> rw [e, hhi, hlo'] <;> constructor <;> linarith
  · intro h; simp [c, comparepositions, h]

/-- Instance: two ideal positions, three extracted ones, of which one is out of range. -/
example : segs (comparepositions ([1, 2, 9] : List ℚ) (some [1, 3]) 0 (-1) 1 none (some 5)).found = [((1, 0), (1, 1)), ((2, 0), (2, 1))] ∧
    (comparepositions ([1, 2, 9] : List ℚ) (some [1, 3]) 0 (-1) 1 none (some 5)).lo = -1 := by
  decide +kernel

/-- **C87.** The dots of the series: exactly one for each peak between `pmin` and `pmax` of each result, at its position
and the (scaled) uncertainty of the result, if that lies between the limits — those given, or the uncertainties of the first
and the last result. -/
theorem c87_dots (results : List (K × List K)) (scale dgmin dgmax : Option K) (pmin : K) (pmax : Option K)
    {first last : K × List K} (h1 : results.head? = some first) (h2 : results.getLast? = some last) :
    ∃ dots, dgseries results scale dgmin dgmax pmin pmax = .ok dots ∧
      (∀ p v, (p, v) ∈ dots ↔ ∃ e ps, (e, ps) ∈ results ∧ p ∈ ps ∧ v = e * scale.getD 1 ∧
        dgmin.getD first.1 * scale.getD 1 ≤ v ∧ v ≤ dgmax.getD last.1 * scale.getD 1 ∧
        pmin ≤ p ∧ ∀ b, pmax = some b → p ≤ b) ∧
      (results.Pairwise (fun a b => a.1 ≤ b.1) → dgmin = none → dgmax = none → 0 ≤ scale.getD 1 →
        dots = results.flatMap (fun r => (r.2.filter (fun p => decide (pmin ≤ p ∧ ∀ b, pmax = some b → p ≤ b))).map
          (fun p => (p, r.1 * scale.getD 1)))) := by
  unfold dgseries
  rw [h1, h2]
  refine ⟨_, rfl, ?_, ?_⟩
  · intro p v
    simp only [List.mem_flatMap, List.mem_filter, List.mem_map, Bool.not_eq_true', Bool.or_eq_false_iff, decide_eq_false_iff_not,
      not_lt, decide_eq_true_eq, Option.mem_def, Prod.exists, Prod.mk.injEq]
    constructor
    · rintro ⟨e, ps, ⟨hr, ha, hb⟩, q, ⟨hq, hc, hd⟩, rfl, rfl⟩
      exact ⟨e, ps, hr, hq, rfl, ha, hb, hc, hd⟩
    · rintro ⟨e, ps, hr, hq, rfl, ha, hb, hc, hd⟩
      exact ⟨e, ps, ⟨hr, ha, hb⟩, p, ⟨hq, hc, hd⟩, rfl, rfl⟩
  · intro hs e1 e2 hsc
    rw [e1, e2]
    simp only [Option.getD_none, Option.mem_def]
    congr 1
    rw [List.filter_eq_self]
    intro r hr
    simp only [Bool.not_eq_true', Bool.or_eq_false_iff, decide_eq_false_iff_not, not_lt]
    obtain ⟨l, rfl⟩ : ∃ l, results = first :: l := by
      cases results with
      | nil => simp at h1
      | cons a l => simp only [List.head?_cons, Option.some.injEq] at h1; exact ⟨l, by rw [h1]⟩
    obtain ⟨l', hl'⟩ := List.getLast?_eq_some_iff.1 h2
    constructor
    · rcases List.mem_cons.1 hr with rfl | hr
      · exact le_rfl
      · exact mul_le_mul_of_nonneg_right ((List.pairwise_cons.1 hs).1 r hr) hsc
    · rw [hl'] at hr hs
      rcases List.mem_append.1 hr with hr | hr
      · exact mul_le_mul_of_nonneg_right ((List.pairwise_append.1 hs).2.2 r hr last (by simp)) hsc
      · rw [List.mem_singleton.1 hr]

/-- Instance: three results in increasing order, all shown, but not the peak at 9. -/
example : (dgseries ([(1, [2, 3]), (2, [2, 9]), (4, [])] : List (ℚ × List ℚ)) none none none 0 (some 5)).toOption = some [(2, 1), (3, 1), (2, 2)] := by
  decide +kernel

/-- **C87 (finding).** The default limits are the uncertainties of the first and the last result, not the smallest and
largest: if the last is smaller, nothing is shown at all.  Without any results IndexError is raised, even if the limits
are given. -/
theorem c87_unsorted (results : List (K × List K)) (scale dgmin dgmax : Option K) (pmin : K) (pmax : Option K) :
    (∀ first last, results.head? = some first → results.getLast? = some last →
      last.1 * scale.getD 1 < first.1 * scale.getD 1 → dgseries results scale none none pmin pmax = .ok []) ∧
    dgseries [] scale dgmin dgmax pmin pmax = .error .index := by
  refine ⟨?_, rfl⟩
  intro first last h1 h2 hlt
  unfold dgseries
  rw [h1, h2]
  simp only [Option.getD_none]
  rw [List.filter_eq_nil_iff.2]
  · rfl
  · intro r _
    simp only [Bool.not_eq_true', Bool.or_eq_false_iff, decide_eq_false_iff_not, not_lt, not_and, not_le]
    intro h
    exact lt_of_lt_of_le hlt h

/-- Instance: uncertainties tried from the largest to the smallest. -/
example : (dgseries ([(4, [2, 3]), (2, [2, 9]), (1, [7])] : List (ℚ × List ℚ)) none none none 0 none).toOption = some [] := by
  decide +kernel

end Verif.Plot
