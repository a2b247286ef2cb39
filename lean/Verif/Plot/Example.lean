import Verif.Plot.More
import Verif.Plot.Inset

/-!
# C86: instances, and where the observed data beyond the cluster are shown
-/

set_option linter.unusedSectionVars false

namespace Verif.Plot

open Verif.Py Verif.PeakList Verif.Extraction Verif.Pdf Verif.Parts.Extract Verif.Parts.ModelCluster
open Verif.Parts.PdfExtract Verif.Parts

section

variable {K : Type} [Field K] [LinearOrder K] [IsStrictOrderedRing K] [FloorSemiring K]

/-- **C86, finding.** The points at which observed data are shown beyond the cluster are not points of the data: the step
is the width of the cluster divided by the number of its points, not by the number of intervals.  On evenly spaced data the
first such point lies strictly between two points of the data (so what is shown there is not observed, but interpolated). -/
theorem c86_off_grid {resample : List K → List K → List K → Res (List K)} {x y : List K} {e : Shown K}
    {series : Option (List (K × List K))} {ip : Option (List K)} {k : Kwds K} {f : Figure K}
    (h : makeplot resample x y e series ip k = .ok f) {a d : K} (hd : 0 < d) {n : ℕ} (hn : 2 ≤ n)
    (hr : e.r = (List.range n).map (fun i : ℕ => a + i * d))
    (hlen : ∀ a b l o, resample a b l = .ok o → o.length = l.length) {hi : K} (hk : k.xhi = some hi)
    (hhi : a + (n - 1 : ℕ) * d < hi) {obs : List (K × K)} (ho : f.observed = some obs) :
    ∃ q ∈ obs, a + (n - 1 : ℕ) * d < q.1 ∧ q.1 < a + n * d ∧ ∀ q' ∈ obs, a + (n - 1 : ℕ) * d < q'.1 → q.1 ≤ q'.1 := by
  obtain ⟨m, rfl⟩ : ∃ m, n = m + 2 := ⟨n - 2, by omega⟩
  have h0 : e.r.head? = some a := by
    rw [hr, List.range_succ_eq_map]; simp
  have h1 : e.r.getLast? = some (a + (m + 1 : ℕ) * d) := by
    rw [hr, List.range_succ]; simp
  have hinc : e.r.Pairwise (· < ·) := by
    rw [hr, List.pairwise_map]
    apply List.pairwise_lt_range.imp
    intro i j hij
    have : (i : K) < j := by exact_mod_cast hij
    nlinarith
  obtain ⟨r0, r1, c, mn, mx, u, v, mm⟩ := makeplot_ok h
  have g0 := mm.head; have g1 := mm.last
  rw [h0, Option.some.injEq] at g0
  rw [h1, Option.some.injEq] at g1
  subst g0 g1
  obtain ⟨ob, c1, c2, c3, c4, -⟩ := curves_ok mm.curves h0 h1
  have hl : e.r.length = m + 2 := by rw [hr]; simp
  have hm : (0 : K) ≤ m := Nat.cast_nonneg m
  have hs : (a + ((m + 1 : ℕ) : K) * d - a) / (e.r.length : K) = (m + 1) / (m + 2) * d := by
    rw [hl]; push_cast; ring
  rw [hs] at c1
  have hs0 : 0 < ((m : K) + 1) / (m + 2) * d := by positivity
  have hs1 : ((m : K) + 1) / (m + 2) * d < d := by
    have : ((m : K) + 1) / (m + 2) < 1 := by rw [div_lt_one (by linarith)]; linarith
    nlinarith
  obtain ⟨na, nb, hl', ha, hb⟩ := rexpand_ok hs0 c1
  generalize ((m : K) + 1) / (m + 2) * d = s at *
  have hobs : obs.map Prod.fst = c.rexpand := by
    have := mm.observed
    rw [ho] at this
    split at this
    · simp only [Option.some.injEq] at this
      rw [this, List.map_fst_zip]
      rw [c4, List.length_map, hlen _ _ _ _ c3]
    · simp at this
  have hnb : 0 < nb := by
    rw [hb, hk]
    simp only [Option.getD_some]
    have e1 : (m + 2 - 1 : ℕ) = m + 1 := by omega
    rw [e1] at hhi
    simp only [Nat.cast_zero, zero_mul, add_zero]
    linarith
  have e1 : (m + 2 - 1 : ℕ) = m + 1 := by omega
  rw [e1]
  have hmem : a + (m + 1 : ℕ) * d + s ∈ obs.map Prod.fst := by
    rw [hobs, hl', List.mem_append]
    right
    exact List.mem_map.2 ⟨0, List.mem_range.2 hnb, by simp⟩
  obtain ⟨q, hq, hqe⟩ := List.mem_map.1 hmem
  refine ⟨q, hq, by rw [hqe]; linarith, ?_, ?_⟩
  · rw [hqe]; push_cast; linarith
  · intro q' hq' hlt
    have hin : q'.1 ∈ c.rexpand := by rw [← hobs]; exact List.mem_map.2 ⟨q', hq', rfl⟩
    rw [hl', List.mem_append, List.mem_append] at hin
    rcases hin with (hin | hin) | hin
    · exfalso
      rw [List.mem_reverse, List.mem_map] at hin
      obtain ⟨j, -, hj⟩ := hin
      have h2 : (0 : K) ≤ j * s := by positivity
      have h3 : (0 : K) ≤ ((m + 1 : ℕ) : K) * d := by positivity
      rw [← hj] at hlt
      linarith
    · exfalso
      rw [hr, List.mem_map] at hin
      obtain ⟨j, hj, hj'⟩ := hin
      have hj := List.mem_range.1 hj
      have h2 : (j : K) ≤ ((m + 1 : ℕ) : K) := by exact_mod_cast (by omega : j ≤ m + 1)
      rw [← hj'] at hlt
      nlinarith
    · rw [List.mem_map] at hin
      obtain ⟨j, -, hj⟩ := hin
      rw [hqe, ← hj]
      have h2 : (0 : K) ≤ j * s := by positivity
      linarith

end

/-- Interpolation that keeps the number of points. -/
def linear (x y l : List ℚ) : Res (List ℚ) := .ok (l.map (fun v => lin v x y))

/-- A cluster: four points, a constant baseline, one triangular peak. -/
def four : Shown ℚ := ⟨[1, 2, 3, 4], [1, 3, 2, 1], [1, 1, 1, 1], fun _ => 1, [(2, fun a => max 0 (2 - |a - 2|))]⟩

/-- A figure of it, with the x-axis to 6, a series and ideal positions. -/
def figure : Res (Figure ℚ) :=
  makeplot linear [0, 1, 2, 3, 4, 5, 6] [0, 1, 3, 2, 1, 5, 0] four (some [(1, [2]), (2, [2, 7])]) (some [2, 3]) { xhi := some 6, scale := some 2 }

/-- Instance of C86: the hypotheses of the theorems hold. -/
example : ∃ f, figure = .ok f ∧ four.r.Pairwise (· < ·) ∧ (∀ a b l o, linear a b l = .ok o → o.length = l.length) ∧
    four.r = (List.range 4).map (fun i : ℕ => (1 : ℚ) + i * 1) ∧ f.observed.isSome ∧ f.residual.isSome ∧ f.fit.isSome ∧
    f.cmp.isSome ∧ f.dg = some [(2, 2), (2, 4)] ∧
    f.observed.map (fun l => l.map Prod.fst) = some [1, 2, 3, 4, 19/4, 11/2, 25/4] ∧
    f.residual.map (fun l => l.map (fun q => q.2 - f.resbase)) = some [-2, 0, 0, 0] := by
  have h : (figure.toOption.map (fun f => decide (f.observed.isSome ∧ f.residual.isSome ∧ f.fit.isSome ∧
    f.cmp.isSome ∧ f.dg = some [(2, 2), (2, 4)] ∧
    f.observed.map (fun l => l.map Prod.fst) = some [1, 2, 3, 4, 19/4, 11/2, 25/4] ∧
    f.residual.map (fun l => l.map (fun q => q.2 - f.resbase)) = some [-2, 0, 0, 0]))) = some true := by decide +kernel
  cases hf : figure with
  | error e => rw [hf] at h; simp [Except.toOption] at h
  | ok f =>
    rw [hf] at h
    simp only [Except.toOption, Option.map_some, Option.some.injEq, decide_eq_true_eq] at h
    refine ⟨f, rfl, by decide +kernel, ?_, by decide +kernel, h⟩
    intro a b l o ho
    simp only [linear, Except.ok.injEq] at ho
    rw [← ho]; simp

/-- Instance of C86 with `mask_residual`, also negative: the first value, -2, is not drawn, with 2 it is. -/
example : ∀ m ∈ [((-1 : ℚ), [(2 : ℚ), 3, 4]), (2, [1, 2, 3, 4]), (0, [1, 2, 3, 4])],
    (makeplot linear [0, 1, 2, 3, 4, 5, 6] [0, 1, 3, 2, 1, 5, 0] four none none { scale := some 2, maskResidual := some m.1 }).toOption.map
      (fun f => f.residual.map (fun l => l.map Prod.fst)) = some (some m.2) := by
  decide +kernel

/-- Instance of `c86_bands`: heights that leave room, and the limits of that figure with no limits given. -/
example : (makeplot linear [0, 1, 2, 3, 4, 5, 6] [0, 1, 3, 2, 1, 5, 0] four none none {}).toOption.map (fun f => (f.ylim, f.xlim)) =
    some ((-36/167, 564/167), (1, 4)) ∧
    (let hs := heights ({} : Kwds ℚ) false false; hs.top + hs.dg + hs.cmp + hs.datatop + hs.databottom + hs.bottom < 100) := by
  decide +kernel

/-- Instance of `c86_unextracted`: the initial peaks are plotted on the data of the range. -/
example : Ready (pdfVars [0, 3, 5, 0, 2, 0, 1]).base [0, 1, 2, 3, 4, 5, 6] [0, 3, 5, 0, 2, 0, 1] ∧
    shown (extOf dotWorld 3 dotDef { pdfObj [0, 3, 5, 0, 2, 0, 1] with vars := { pdfVars [0, 3, 5, 0, 2, 0, 1] with base := { (pdfVars [0, 3, 5, 0, 2, 0, 1]).base with initialPeaks := some 1, rng := some (some 1, some 4) } } }).1 = some [(9, [2, 5])] :=
  ⟨pdfVars_ready _ rfl, by decide +kernel⟩

end Verif.Plot
