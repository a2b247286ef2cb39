import Verif.Stability.Props

/-!
# C80: instances, and a finding about the grid
-/

namespace Verif.Parts.Stability

open Verif.Py Verif.Extraction Verif.Pdf Verif.Parts.Extract Verif.Parts.ModelCluster Verif.Parts.PdfExtract

/-- Extractions that leave the objects alone. -/
def still : Effects ℚ := ⟨fun o => o.heap, fun _ => true⟩

def stab (q : ℚ) (y : List ℚ) : Stab ℚ := ⟨[], ⟨{ pdfVars y with qmax := some q }, dotHeap, none, none⟩, none⟩

set_option synthInstance.maxSize 1000
set_option synthInstance.maxHeartbeats 200000

/-- The grid and the positions and heights of the extracted model. -/
def active (o : PObj ℚ) : Option (List ℚ × List (List ℚ)) := o.extracted.map (fun c => (c.r, c.model.map (fun p => p.pars)))

/-- After `run`: the last extraction; the uncertainties and intervals; then the model made active by `setcurrent`. -/
def story (q : ℚ) (y err : List ℚ) (i : ℤ) :
    Option (Option (List ℚ × List (List ℚ)) × List (ℚ × ℚ) × Option (List ℚ × List (List ℚ))) :=
  match run dotWorld linSampler dotDef still 5 err (stab q y) with
  | some (.ok (), s) =>
    match setcurrent dotWorld linSampler dotDef (some i) s with
    | (.ok (), t) => some (active s.ppe, s.results.map (fun e : Entry ℚ => (e.e, e.dr)), active t.ppe)
    | _ => none
  | _ => none

/-- Instance of C80: the hypotheses hold; a run at two uncertainties finds two peaks and one peak; the first result made
active again is on the same grid as the extraction. -/
example : Sane dotWorld ∧ Estimates dotWorld ∧ Uniform linSampler ∧ Ripples linSampler ∧
    Tamed dotDef still ∧ dotHeap.peaks dotDef.noPeaks = [] ∧
    Ready (stab 3 [0, 3, 5, 0, 0, 0, 0]).ppe.vars.base [0, 1, 2, 3, 4, 5, 6] [0, 3, 5, 0, 0, 0, 0] ∧
    0 < preferredQmax (stab 3 [0, 3, 5, 0, 0, 0, 0]).ppe.vars ∧
    story 3 [0, 3, 5, 0, 0, 0, 0] [1, 4] 0 =
      some (some ([0, 1, 2, 3, 4, 5], [[2, 5]]), [(1, 1), (4, 1)], some ([0, 1, 2, 3, 4, 5], [[1, 3], [2, 5]])) :=
  ⟨dotWorld_sane, dotWorld_estimates, linSampler_uniform, linSampler_ripples, fun _ _ _ _ _ _ => mild_refl _, rfl,
    pdfVars_ready _ rfl, by decide +kernel, by decide +kernel⟩

/-- **C80, finding.** The model made active never has the last data point: all coordinates are below the end of the
data.  Without Nyquist sampling the extraction did have it, so the model is then shown, and judged, on other data than
those it was fitted to. -/
theorem c80_last_point_lost {K : Type} [Field K] [LinearOrder K] [IsStrictOrderedRing K] {W : World K} {S : Sampler K}
    {D : Defaults K} (hU : Uniform S) (s s' : Stab K) (x y : List K) (x1 : K) (hr : Ready s.ppe.vars.base x y)
    (hx1 : x.getLast? = some x1) (i : ℤ) (en : Entry K) (hen : At s.results i en) (hdr : 0 < en.dr)
    (h : setcurrent W S D (some i) s = (.ok (), s')) :
    ∃ c, s'.ppe.extracted = some c ∧ ∀ v ∈ c.r, v < x1 := by
  have hx : x ≠ [] := by intro h0; rw [h0] at hx1; simp at hx1
  obtain ⟨en', P, c, h1, h2, h3, h4, -⟩ := c80_setcurrent s s' x y hr hx i h
  rw [← pyGet_at] at hen h1
  rw [hen, Option.some.injEq] at h1
  subst h1
  refine ⟨c, h3, fun v hv => ?_⟩
  have hPx : P.x = x := Option.some.inj (h2.x.symm.trans hr.hasx)
  have hP1 : P.x1 = x1 := Option.some.inj (h2.last.symm.trans (by rw [hPx]; exact hx1))
  obtain ⟨N, e, hN⟩ := hU.grid (max P.x0 P.a) (min P.x1 P.b) en.dr hdr
  rw [h4.data.grid, e] at hv
  obtain ⟨k, hk, rfl⟩ := List.mem_map.1 hv
  have := (hN k).1 (List.mem_range.1 hk)
  rw [← hP1]
  exact lt_of_lt_of_le this (min_le_left _ _)

/-- Instance: qmax 0; the extraction at uncertainty 1 was on the data at 0..6, the model made active is on 0..5. -/
example : story 0 [0, 3, 5, 0, 0, 0, 0] [1] 0 =
    some (some ([0, 1, 2, 3, 4, 5, 6], [[1, 3], [2, 5]]), [(1, 1)], some ([0, 1, 2, 3, 4, 5], [[1, 3], [2, 5]])) := by
  decide +kernel

end Verif.Parts.Stability
