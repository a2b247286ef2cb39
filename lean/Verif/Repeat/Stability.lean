import Verif.Repeat.Props
import Verif.Stability.Example

/-!
# C80 with the effects that extractions have on objects in the code
-/

set_option linter.unusedSectionVars false

namespace Verif.Parts.Stability

open Verif.Py Verif.Extraction Verif.Pdf Verif.Parts.Extract Verif.Parts.ModelCluster Verif.Parts.PdfExtract Verif.Parts.Repeat

section

variable {K : Type} [Field K] [LinearOrder K] [IsStrictOrderedRing K] {W : World K} {S : Sampler K} {D : Defaults K}

/-- What `extract()` does to the objects — pdfpeakextraction.py:334-556, see `Repeat/Model.lean`. -/
def codeEffects (W : World K) (S : Sampler K) (D : Defaults K) (n : ℕ) : Effects K :=
  ⟨fun o => (effects W S D n o).1, fun o => (effects W S D n o).2⟩

/-- The code's effects meet the hypothesis of the theorems on `run`. -/
theorem code_tamed (hS : Sane W) (hE : Estimates W) (hU : Uniform S) (hR : Ripples S) (n : ℕ) : Tamed D (codeEffects W S D n) := by
  intro o x y hN hr hss
  simp only [codeEffects, effects]
  generalize hs : pdefaultvars S.pi D o.vars = dv
  obtain ⟨u, s⟩ := dv
  cases u with
  | error e => exact mild_refl _
  | ok u =>
    have h := (afterExtract_spared (n := n) hS hE hU hR hN hr hss hs).1
    exact ⟨h.peaks, h.funcs, h.same⟩

/-- **C80.** `c80_run` for the effects of the code. -/
theorem c80_run_code (hS : Sane W) (hE : Estimates W) (hU : Uniform S) (hR : Ripples S) (n : ℕ) (s s' : Stab K) (x y : List K)
    (hr : Ready s.ppe.vars.base x y) (hx : x ≠ []) (hN : s.ppe.heap.peaks D.noPeaks = []) (hss : ∀ v, s.ppe.vars.supersample = some v → 0 < v)
    (err : List K) (r : Res Unit) (h : run W S D (codeEffects W S D n) n err s = some (r, s')) :
    List.Forall₂ (fun e en => ∃ c, Ran W S D n s.ppe.vars s.ppe.heap x e en c) (err.take s'.results.length) s'.results ∧
    (r = .ok () → s'.results.length = err.length ∧ ∀ e ∈ err, 0 < e) ∧
    (∀ e, r = .error e → s'.results.length < err.length) :=
  c80_run hS hE hU hR _ (code_tamed hS hE hU hR n) n s s' x y hr hx hN hss err r h

end

/-! ## Finding -/

/-- An optimiser that leaves the peaks where they are, but raises a baseline by 1/8. -/
def raise (m : List (Part ℚ)) : Lsq ℚ :=
  match m.getLast? with
  | some p => if p.owner.id = 0 then ⟨[], .done (m.dropLast.flatMap stayAt ++ [p.pars.getD 0 0 + 1/8]) 1 (some (eye (npars m false))) []⟩ else stay m
  | none => stay m

def rising : Numerics ℚ := { spots .aic with val := levelVal, opt := fun _ m => (raise m, raise m) }

def risingStab : Stab ℚ :=
  ⟨[], ⟨{ pdfVars [4, 1/4, 1/4, 1/4, 3, 1/4, 1/4] with qmax := some 0 }, { dotHeap with base := fun _ => level 0 }, none, none⟩, none⟩

/-- The uncertainties and baselines of the results of a run. -/
def bases (err : List ℚ) : Option (List (ℚ × Option (List ℚ))) :=
  match run (codeWorld rising) linSampler dotDef (codeEffects (codeWorld rising) linSampler dotDef 5) 5 err risingStab with
  | some (.ok (), s) => some (s.results.map (fun en => (en.e, (en.bl.get s.ppe.heap).map (fun p => p.pars))))
  | _ => none

theorem rising_sorting : Sorting rising := ⟨mergeAs_sorts, pickBest_one, spots_scales .aic⟩

theorem rising_ready : Ready risingStab.ppe.vars.base [0, 1, 2, 3, 4, 5, 6] [4, 1/4, 1/4, 1/4, 3, 1/4, 1/4] :=
  ⟨rfl, rfl, ⟨_, rfl, rfl⟩, by intro e h; simp [risingStab, pdfVars, dotVars] at h, by decide +kernel, rfl⟩

/-- **C80, finding.** The result of a run changes when later extractions of the same run have been done: the extraction at uncertainty 2 ends
with the baseline at 1/4, but after the one at 3 both results have it at 1/2. -/
theorem c80_first_changed : Sane (codeWorld rising) ∧ Estimates (codeWorld rising) ∧ Uniform linSampler ∧ Ripples linSampler ∧
    Ready risingStab.ppe.vars.base [0, 1, 2, 3, 4, 5, 6] [4, 1/4, 1/4, 1/4, 3, 1/4, 1/4] ∧
    bases [2] = some [(2, some [1/4])] ∧ bases [2, 3] = some [(2, some [1/2]), (3, some [1/2])] :=
  ⟨c95_sane _ rising_sorting, (c95_estimates rising).1, linSampler_uniform, linSampler_ripples, rising_ready, by decide +kernel, by decide +kernel⟩

example {s' : Stab ℚ} {r : Res Unit} (h : run (codeWorld rising) linSampler dotDef (codeEffects (codeWorld rising) linSampler dotDef 5) 5 [2, 3] risingStab = some (r, s')) :=
  c80_run_code (c95_sane _ rising_sorting) (c95_estimates rising).1 linSampler_uniform linSampler_ripples 5 risingStab s' _ _ rising_ready (by decide) rfl
    (pdf_ss _ rfl) [2, 3] r h

/-- The object of the run at uncertainty 2. -/
def risingObj : PObj ℚ := { risingStab.ppe with vars := withEff risingStab.ppe.vars (.scalar 2) }

theorem risingObj_ready : Ready risingObj.vars.base [0, 1, 2, 3, 4, 5, 6] [4, 1/4, 1/4, 1/4, 3, 1/4, 1/4] :=
  ready_withEff rising_ready (by intro e h; cases h)

/-- Instance of `c107_shared`: there the baseline of the result is the caller's object. -/
example {o' : PObj ℚ} (h : extractOn (codeWorld rising) linSampler dotDef 5 risingObj = some (.ok (), o')) :=
  c107_shared (c95_sane _ rising_sorting) (c95_estimates rising).1 linSampler_uniform linSampler_ripples (n := 5) (D := dotDef) (o := risingObj)
    rfl risingObj_ready (pdf_ss _ rfl) h (by decide +kernel)

/-- At uncertainty 1 it is not: the last fit has been reverted.  The result of the first extraction stays as it was. -/
example : bases [1] = some [(1, some [1/8])] ∧ bases [1, 2] = some [(1, some [1/8]), (2, some [1/2])] :=
  ⟨by decide +kernel, by decide +kernel⟩

end Verif.Parts.Stability
