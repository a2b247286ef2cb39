import Verif.Plot.Props
import Verif.PdfExtract.Example

/-!
# C86, continued: which cluster is plotted, the observed data, what cannot be plotted
-/

set_option linter.unusedSectionVars false

namespace Verif.Plot

open Verif.Py Verif.PeakList Verif.Extraction Verif.Pdf Verif.Parts.Extract Verif.Parts.ModelCluster
open Verif.Parts.PdfExtract Verif.Parts

section

variable {K : Type} [Field K] [LinearOrder K] [IsStrictOrderedRing K] [FloorSemiring K]

/-- What is made up if nothing has been extracted: the initial peaks and the baseline, as they are, on the data of the range
with the uncertainties in use. -/
structure MadeUp (D : Defaults K) (o o' : PObj K) (c : Cluster K) (P : Par K) (eff : List K) : Prop where
  vars : From D o.vars P
  errs : P.eff = .array eff
  data : Selected P eff 1 c.r c.y c.err
  whole : ∃ sl, c.slice = some sl ∧ sl.get c.r = c.r ∧ sl.get c.y = c.y ∧ sl.get c.err = c.err
  model : c.model = o.heap.peaks P.ip
  base : c.baseline = some (o.heap.base P.bl)
  method : c.method = P.em
  left : Has o'.vars P

/-- **C86.** Plotting changes no peak, no baseline and no extracted model.  If something has been extracted, that is what is
plotted, and nothing at all is changed.  If not, what is plotted is the initial peaks and the baseline on the data of the
range; variables that were not set are then set to their defaults. -/
theorem c86_unextracted {W : World K} {pi : K} {D : Defaults K} {o o' : PObj K} {r : Res (Cluster K)} {x y : List K}
    (hr : Ready o.vars.base x y) (h : extOf W pi D o = (r, o')) :
    o'.heap = o.heap ∧ o'.extracted = o.extracted ∧ o'.kind = o.kind ∧
    (∀ c, o.extracted = some c → r = .ok c ∧ o' = o) ∧
    (o.extracted = none → ∀ c, r = .ok c → ∃ P eff, MadeUp D o o' c P eff) := by
  unfold extOf at h
  split at h
  · rename_i c hc
    simp only [Prod.mk.injEq] at h
    obtain ⟨rfl, rfl⟩ := h
    refine ⟨rfl, rfl, rfl, ?_, ?_⟩
    · intro d hd
      rw [hc, Option.some.injEq] at hd
      exact ⟨by rw [hd], rfl⟩
    · intro hn
      rw [hc] at hn
      simp at hn
  · rename_i hc
    unfold madeUp at h
    split at h
    · simp only [Prod.mk.injEq] at h
      obtain ⟨rfl, rfl⟩ := h
      exact ⟨rfl, rfl, rfl, fun c h => by rw [hc] at h; simp at h, fun _ c h => by simp at h⟩
    · rename_i v hv
      simp only [Prod.mk.injEq] at h
      obtain ⟨h1, rfl⟩ := h
      refine ⟨rfl, rfl, rfl, fun c h => by rw [hc] at h; simp at h, ?_⟩
      intro _ c hcr
      rw [hcr] at h1
      obtain ⟨P, hP, h1⟩ := bindOk h1
      obtain ⟨sl, hsl, h1⟩ := bindOk h1
      obtain ⟨g, hg, h1⟩ := bindOk h1
      have hP := complete_ok hP
      obtain ⟨hfrom, hx, hy, hl⟩ := from_of hr hv hP
      obtain ⟨eff, e1, e2⟩ := raw_ok hsl (by rw [hx]; exact hr.inc) (by rw [hx, hy]; exact hr.leny) hP.first hP.last
        (by rw [hx]; exact hl) hg
      have hd := e2.data (by rw [hx]; exact hr.inc) (by rw [hx, hy]; exact hr.leny) (by rw [hx]; exact hl eff e1)
      unfold newCluster at h1
      simp only at h1
      split at h1
      · simp at h1
      · rename_i c' heq
        simp only [Except.ok.injEq] at h1
        subst h1
        obtain ⟨b, e, -⟩ := changeSlice_ok heq
        rw [e]
        refine ⟨P, eff, hfrom, e1, e2, ⟨⟨none, g.1.length⟩, rfl, ?_, ?_, ?_⟩, rfl, rfl, rfl, hP⟩
        · exact get_whole _
        · have := get_whole g.2.1; rw [hd.leny] at this; exact this
        · have := get_whole g.2.2; rw [hd.lene] at this; exact this

/-- **C86, finding.** A cluster of a single point cannot be plotted: ValueError. -/
theorem c86_one_point {resample : List K → List K → List K → Res (List K)} {x y : List K} {e : Shown K} {v : K}
    (he : e.r = [v]) (series : Option (List (K × List K))) (ip : Option (List K)) (k : Kwds K) :
    makeplot resample x y e series ip k = .error .value := by
  unfold makeplot curves rexpand arange
  rw [he]
  simp
  rfl

/-- **C86, finding.** If neither the fit nor the peaks nor the observed data are to be shown, nothing can be plotted,
not even the residual alone, and even if the limits of the values are given: the limits are computed all the same. -/
theorem c86_residual_only {resample : List K → List K → List K → Res (List K)} {x y : List K} {e : Shown K}
    (series : Option (List (K × List K))) (ip : Option (List K)) (k : Kwds K) (h1 : k.showFit = false)
    (h2 : k.showIndividual = false) (h3 : k.showObserved = false) (f : Figure K) :
    makeplot resample x y e series ip k ≠ .ok f := by
  intro h
  obtain ⟨r0, r1, c, mn, mx, a, b, m⟩ := makeplot_ok h
  have := (extremes_ok m.extremes).ne
  apply this
  unfold allGr
  simp [h1, h2, h3]

/-- **C86, finding.** A height for the series cannot be given if there is no series: there is no figure then. -/
theorem c86_height_without_series {resample : List K → List K → List K → Res (List K)} {x y : List K} {e : Shown K}
    (ip : Option (List K)) (k : Kwds K) {v : K} (hk : k.dgHeight = some v) (hv : 0 < v) (f : Figure K) :
    makeplot resample x y e none ip k ≠ .ok f := by
  intro h
  obtain ⟨r0, r1, c, mn, mx, a, b, m⟩ := makeplot_ok h
  obtain ⟨l, d, h1, -⟩ := m.dg.1 (by unfold heights; rw [hk]; exact hv)
  simp at h1

/-- **C86.** The insets: the positions of the peaks are compared unless a height of 0 (or less) is asked for; the series is
shown if there is one, unless a height of 0 is asked for, for the peaks between the ends of the cluster. -/
theorem c86_insets {resample : List K → List K → List K → Res (List K)} {x y : List K} {e : Shown K}
    {series : Option (List (K × List K))} {ip : Option (List K)} {k : Kwds K} {f : Figure K}
    (h : makeplot resample x y e series ip k = .ok f) :
    (f.cmp.isSome ↔ ∀ v, k.cmpHeight = some v → 0 < v) ∧
    (∀ c, f.cmp = some c → c = comparepositions (e.peaks.map Prod.fst) ip 0 (-1) 1 none none) ∧
    (f.dg.isSome ↔ series.isSome ∧ ∀ v, k.dgHeight = some v → 0 < v) ∧
    (∀ d, f.dg = some d → ∃ l r0 r1, series = some l ∧ e.r.head? = some r0 ∧ e.r.getLast? = some r1 ∧
      dgseries l k.scale k.dgmin k.dgmax r0 (some r1) = .ok d) := by
  obtain ⟨r0, r1, c, mn, mx, a, b, m⟩ := makeplot_ok h
  have hc : 0 < (heights k series.isSome ip.isSome).cmp ↔ ∀ v, k.cmpHeight = some v → 0 < v := by
    unfold heights
    cases k.cmpHeight with
    | none => simp only [Option.getD_none]; split <;> simp
    | some v => simp
  have hd : 0 < (heights k series.isSome ip.isSome).dg → ∀ v, k.dgHeight = some v → 0 < v := by
    unfold heights
    intro h0 v hv
    simpa [hv] using h0
  refine ⟨?_, ?_, ?_, ?_⟩
  · rw [m.cmp, ← hc]
    by_cases h0 : 0 < (heights k series.isSome ip.isSome).cmp
    · rw [if_pos h0]; exact ⟨fun _ => h0, fun _ => rfl⟩
    · rw [if_neg h0]; exact ⟨fun h => by simp at h, fun h => absurd h h0⟩
  · intro c hc
    rw [m.cmp] at hc
    split at hc
    · simp only [Option.some.injEq] at hc; exact hc.symm
    · simp at hc
  · by_cases h0 : 0 < (heights k series.isSome ip.isSome).dg
    · obtain ⟨l, d, h1, h2, h3⟩ := m.dg.1 h0
      rw [h3, h1]
      simpa using hd h0
    · rw [m.dg.2 h0]
      simp only [Option.isSome_none, Bool.false_eq_true, false_iff, not_and]
      intro hs hv
      apply h0
      unfold heights
      rw [hs]
      cases hk : k.dgHeight with
      | none => simp
      | some v => exact hv v hk
  · intro d hd
    by_cases h0 : 0 < (heights k series.isSome ip.isSome).dg
    · obtain ⟨l, d', h1, h2, h3⟩ := m.dg.1 h0
      rw [h3, Option.some.injEq] at hd
      subst hd
      exact ⟨l, r0, r1, h1, m.head, m.last, h2⟩
    · rw [m.dg.2 h0] at hd
      simp at hd

end

/-- **C86.** The observed data are the data: on evenly spaced data, whatever the limits of the x-axis, at every coordinate of
the data that is shown the value shown is the value of the data, scaled; between them and beyond it is the
Whittaker–Shannon sum over the data. -/
theorem c86_observed {a d : ℝ} (hd : d ≠ 0) {y : List ℝ} (hy : 2 ≤ y.length) {e : Shown ℝ}
    {series : Option (List (ℝ × List ℝ))} {ip : Option (List ℝ)} {k : Kwds ℝ} {f : Figure ℝ}
    (h : makeplot resample ((List.range y.length).map (fun i : ℕ => a + i * d)) y e series ip k = .ok f)
    {obs : List (ℝ × ℝ)} (ho : f.observed = some obs) :
    (∀ q ∈ obs, q.2 = (∑ i ∈ Finset.range y.length, y.getD i 0 * sinc ((q.1 - (a + i * d)) / d)) * k.scale.getD 1) ∧
    ∀ q ∈ obs, ∀ i : ℕ, i < y.length → q.1 = a + i * d → ∃ v, y[i]? = some v ∧ q.2 = v * k.scale.getD 1 := by
  obtain ⟨r0, r1, c, mn, mx, m1, m2, m⟩ := makeplot_ok h
  obtain ⟨ob, c1, c2, c3, c4, -⟩ := curves_ok m.curves m.head m.last
  have hne : c.rexpand ≠ [] := by
    intro h0
    rw [h0] at c3
    unfold resample at c3
    split at c3
    · rename_i heq; simp at heq
    · simp at c3
  obtain ⟨out, o1, o2, o3⟩ := c42_resample a d hd y c.rexpand hy hne
  rw [c3, Except.ok.injEq] at o1
  subst o1
  have hob := m.observed
  rw [ho] at hob
  split at hob
  · simp only [Option.some.injEq] at hob
    have hget : ∀ q ∈ obs, ∃ j : ℕ, c.rexpand[j]? = some q.1 ∧ ∃ v, ob[j]? = some v ∧ q.2 = v * k.scale.getD 1 := by
      intro q hq
      rw [hob] at hq
      obtain ⟨j, hj⟩ := List.getElem?_of_mem hq
      rw [List.getElem?_zip_eq_some, c4, List.getElem?_map, Option.map_eq_some_iff] at hj
      obtain ⟨h1, v, h2, h3⟩ := hj
      exact ⟨j, h1, v, h2, h3.symm⟩
    refine ⟨?_, ?_⟩
    · intro q hq
      obtain ⟨j, j1, v, j2, j3⟩ := hget q hq
      rw [o2, List.getElem?_map, j1, Option.map_some, Option.some.injEq] at j2
      rw [j3, ← j2]
    · intro q hq i hi hqi
      obtain ⟨j, j1, v, j2, j3⟩ := hget q hq
      have := o3 j i hi (by rw [j1, hqi])
      exact ⟨v, by rw [← this, j2], j3⟩
  · simp at hob

end Verif.Plot
