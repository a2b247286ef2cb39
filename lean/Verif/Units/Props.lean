import Verif.Units.Package
import Verif.Units.Objects
import Verif.Package.Example

/-!
# Property C104: the result does not depend on the units of the data
-/

set_option linter.unusedSectionVars false

namespace Verif.Parts.Units

open Verif.Py Verif.PeakList Verif.Parts.ModelCluster Verif.Parts.Extract Verif.Extraction Verif.Parts.Package

section

variable {K : Type} [Field K] [LinearOrder K] [IsStrictOrderedRing K]

variable {u : Change K} {N N' : Numerics K} {D D' : Defaults K}

/-- **C104.** `extract_single` on the data in new units (coordinates times `a > 0`, intensities times `k > 0`, cluster resolution, range,
uncertainties, baseline, initial peaks and peak functions converted): the same exception, or the same cluster in new units — the same peaks in
the same order, each parameter times its unit, the same flags, the same borders. -/
theorem c104_extract (hu : u.Sensible) (hN : NumericsAlike u N N') (hD : DefaultsAlike u D D') (H : Heap K) (n depth : ℕ) (s : PX K) :
    extractSingle (codeWorld N') (u.heap H) D' n depth (u.vars s) = (extractSingle (codeWorld N) H D n depth s).map u.cluster :=
  extractSingle_units hu (code_alike hu hN) hD H n depth s

/-- **C104.** `estimate_peak` at the converted coordinate: the converted peak, and the converted object. -/
theorem c104_estimate_peak (hu : u.Sensible) (hN : NumericsAlike u N N') (hD : DefaultsAlike u D D') (o : Obj K) (v : K) (add : Bool) :
    estimatePeak (codeWorld N') D' (u.obj o) (u.a * v) add =
      ((estimatePeak (codeWorld N) D o v add).1.map (Option.map u.part), u.obj (estimatePeak (codeWorld N) D o v add).2) :=
  estimatePeak_units hu (code_alike hu hN) hD o v add

/-- **C104.** `add_peaks` with converted peaks. -/
theorem c104_add_peaks (hu : u.Sensible) (hN : NumericsAlike u N N') (o : Obj K) (ps : List (Part K)) :
    addPeaks (codeWorld N') (u.obj o) (u.parts ps) = ((addPeaks (codeWorld N) o ps).1, u.obj (addPeaks (codeWorld N) o ps).2) :=
  addPeaks_units hu (code_alike hu hN) o ps

/-- **C104.** `fit_single` of the converted object: the same exception or success, and the converted object — the objects of the user
that it modifies included. -/
theorem c104_fit_single (hu : u.Sensible) (hN : NumericsAlike u N N') (hD : DefaultsAlike u D D') (o : Obj K) :
    fitSingle (codeWorld N') D' (u.obj o) = ((fitSingle (codeWorld N) D o).1, u.obj (fitSingle (codeWorld N) D o).2) :=
  fitSingle_units hu (code_alike hu hN) hD o

/-- **C104.** The quality of a cluster is a pure number. -/
theorem c104_quality (hu : u.Sensible) (hN : NumericsAlike u N N') (c : Cluster K) (kshift : ℤ) :
    rate N' (u.cluster c) (u.cluster c).model (u.cluster c).baseline kshift = rate N c c.model c.baseline kshift :=
  rate_units hu hN c c.model c.baseline kshift

/-- **C104.** The defaults of all extraction variables are the converted ones. -/
theorem c104_defaults (hu : u.Sensible) (hD : DefaultsAlike u D D') (s : PX K) :
    defaultvars D' (u.vars s) = ((defaultvars D s).1, u.vars (defaultvars D s).2) :=
  defaultvars_units hu hD s

end

/-! ### The peak functions of the package -/

variable {a k : ℝ} {T : Table} {wo : ℕ → List (String × ℕ) → ℕ → ℝ}

/-- **C104.** With the peak functions of the package, each made anew with its maximum width in the new unit: nothing is assumed but that sorting, the
evaluators and the optimiser are the same in both units. -/
theorem c104_package (ha : 0 < a) (hk : 0 < k) (hw : OtherUnits a wo) {N N' : Numerics ℝ} (h : RestAlike (change a k T wo) N N')
    {D D' : Defaults ℝ} (hD : DefaultsAlike (change a k T wo) D D') (H : Heap ℝ) (n depth : ℕ) (s : PX ℝ) :
    extractSingle (codeWorld (inPackage (table a T) N')) ((change a k T wo).heap H) D' n depth ((change a k T wo).vars s) =
      (extractSingle (codeWorld (inPackage T N)) H D n depth s).map (change a k T wo).cluster :=
  c104_extract (change_sensible ha hk hw) (package_alike ha hk hw h) hD H n depth s

/-- **C104.** What is reported of a converted peak: position and width times `a`, area times `a k`, or `a² k` for Gaussian/r. -/
theorem c104_reported (ha : 0 < a) (hk : 0 < k) {f : ℕ} {p : Part ℝ} (hp : p.owner = function 0 f (T f)) (hl : p.pars.length = 3) {x w b : ℝ}
    (h : Reported (T f).2 p x w b) :
    Reported (a * (T f).2) ((change a k T wo).part p) (a * x) (a * w) ((match (T f).1 with | .gaussian => a * k | .overR => a ^ 2 * k) * b) := by
  obtain ⟨x0, w0, b0, e⟩ := List.length_eq_three.1 hl
  obtain ⟨t1, t2⟩ := transform_pwa 0 f (T f) x0 w0 b0
  have hpw := h.pwa
  rw [hp, e, t1] at hpw
  simp only [Except.ok.injEq, List.cons.injEq, and_true] at hpw
  obtain ⟨rfl, rfl, rfl⟩ := hpw
  have hA := Peaks.areaUnit_pos (T f).1 ha hk
  have eA : (match (T f).1 with | .gaussian => a * k | .overR => a ^ 2 * k) = Peaks.areaUnit (T f).1 a k := by
    unfold Peaks.areaUnit
    cases (T f).1 with
    | gaussian => rfl
    | overR => simp only; ring
  rw [eA]
  have ho : ((change a k T wo).part p).owner = function 0 f (table a T f) := by
    show (change a k T wo).fn p.owner = _
    rw [hp]
    exact fn_function f
  have hpar : ((change a k T wo).part p).pars = [a * x0, w0, Peaks.areaUnit (T f).1 a k * b0] := by
    show (change a k T wo).pars p.owner p.pars = _
    rw [pars_peak (by rw [hp]; rfl), e, hp]
    have : (function 0 f (T f)).id = f := rfl
    rw [this]
    simp [List.mapIdx_cons, peakUnit]
  have hw' : Peaks.fwhmOf (table a T f).2 w0 = a * Peaks.fwhmOf (T f).2 w0 := by
    show Real.sqrt (_ * (a * (T f).2) ^ 2) = a * Real.sqrt _
    exact Peaks.sqrt_units ha _ _
  obtain ⟨s1, s2⟩ := transform_pwa 0 f (table a T f) (a * x0) w0 (Peaks.areaUnit (T f).1 a k * b0)
  rw [hw', abs_mul, abs_of_pos hA] at s1 s2
  refine ⟨by rw [ho, hpar]; exact s1, by rw [ho, hpar]; exact s2, get_position (by rw [ho]; rfl) hpar, ⟨mul_nonneg ha.le h.width.1, ?_⟩, mul_nonneg hA.le h.area⟩
  exact mul_le_mul_of_nonneg_left h.width.2 ha.le

/-! ### Integer parameters -/

/-- **C104 (finding).** The exception: a peak whose parameters the user gave as integers.  Each value that the optimiser tries is truncated when it is
stored, so the result depends on the unit: `3/2` is stored as `1`, but in units of half the size, `3` is stored as `3`. -/
theorem c104_integers : ∃ (F : Flt ℚ) (p q : Part ℚ), p.isInt = true ∧ q = { p with pars := p.pars.map (fun v => 2 * v) } ∧
    (p.update F [3 / 2]).2.pars = [1] ∧ (q.update F [2 * (3 / 2)]).2.pars = [3] ∧
    (q.update F [2 * (3 / 2)]).2.pars ≠ (p.update F [3 / 2]).2.pars.map (fun v => 2 * v) := by
  refine ⟨⟨fun _ => false, fun v => (v.num / v.den : ℤ)⟩, ⟨⟨0, 1, [("position", 0)], fun _ r => r, fun _ _ _ => [], fun v _ _ => .ok v⟩, [1], [true], true, false, true⟩,
    _, rfl, rfl, ?_, ?_, ?_⟩ <;> decide +kernel

/-! ### An instance -/

/-- The values of the free parameters. -/
def here {K : Type} [Field K] (m : List (Part K)) : List K :=
  m.flatMap (fun p => selectMask ((List.range p.free.length).map (fun i => p.pars.getD i 0)) p.free)

/-- An optimiser that halves all parameters. -/
def halve {K : Type} [Field K] (m : List (Part K)) : Lsq K := ⟨[here m, (here m).map (fun v => v / 2)], .done ((here m).map (fun v => v / 2)) 1 none []⟩

theorem here_length {K : Type} [Field K] (m : List (Part K)) : (here m).length = npars m false := by
  unfold here npars
  rw [List.length_flatMap]
  congr 1
  exact List.map_congr_left (fun p _ => by rw [selectMask_length _ _ (by simp)]; rfl)

theorem selectMask_mul {K : Type} [Field K] (f g : ℕ → K) : ∀ (l : List ℕ) (ms : List Bool),
    selectMask (l.map (fun i => f i * g i)) ms = List.zipWith (fun a b => a * b) (selectMask (l.map f) ms) (selectMask (l.map g) ms)
  | [], ms => by simp [selectMask]
  | i :: l, [] => by simp [selectMask]
  | i :: l, true :: ms => by simp [selectMask, selectMask_mul f g l ms]
  | i :: l, false :: ms => by simp [selectMask, selectMask_mul f g l ms]

theorem here_units {K : Type} [Field K] [LinearOrder K] (u : Change K) : ∀ m : List (Part K), here (u.parts m) = u.vec m (here m)
  | [] => rfl
  | p :: m => by
    have ih := here_units u m
    have e1 : here (u.parts (p :: m)) = selectMask ((List.range p.free.length).map (fun i => (u.pars p.owner p.pars).getD i 0)) p.free ++ here (u.parts m) := rfl
    have e2 : u.vec (p :: m) (here (p :: m)) = List.zipWith (fun f x => f * x) (u.factors p ++ m.flatMap u.factors)
      (selectMask ((List.range p.free.length).map (fun i => p.pars.getD i 0)) p.free ++ here m) := rfl
    have e3 : (fun i => (u.pars p.owner p.pars).getD i 0) = fun i => u.w p.owner i * p.pars.getD i 0 := by
      funext i
      simp only [Change.pars, List.getD_eq_getElem?_getD, List.getElem?_mapIdx]
      cases p.pars[i]? <;> simp
    rw [e1, e2, ih, e3, selectMask_mul, List.zipWith_append]
    · rfl
    · unfold Change.factors
      exact selectMask_length_congr _ _ _ (by simp)

theorem halve_units {K : Type} [Field K] [LinearOrder K] (u : Change K) (m : List (Part K)) : halve (u.parts m) = u.run m (halve m) := by
  have e : ((u.vec m (here m)).map (fun v => v / 2)) = u.vec m ((here m).map (fun v => v / 2)) := by
    unfold Change.vec
    rw [List.map_zipWith, List.zipWith_map_right]
    congr 1
    funext a b
    ring
  unfold halve
  rw [here_units, e]
  rfl

theorem halve_packed {K : Type} [Field K] [LinearOrder K] (m : List (Part K)) : Packed m (halve m) := by
  refine ⟨?_, ?_⟩
  · intro v hv
    simp only [halve, List.mem_cons, List.not_mem_nil, or_false] at hv
    rcases hv with rfl | rfl <;> simp [here_length]
  · intro x ier c f h
    simp only [halve, Outcome.done.injEq] at h
    rw [← h.1]
    simp [here_length]

theorem mergeAs_scaled {t : ℝ} (ht : 0 < t) (l : List ℝ) : mergeAs (l.map (fun v => t * v)) = mergeAs l := by
  have e : ∀ i, (l.map (fun v => t * v)).getD i 0 = t * l.getD i 0 := by
    intro i
    simp only [List.getD_eq_getElem?_getD, List.getElem?_map]
    cases l[i]? <;> simp
  unfold mergeAs
  simp only [List.length_map, e, mul_le_mul_iff_right₀ ht]

noncomputable def halving : Numerics ℝ := { exNumerics with opt := fun _ m => (halve m, halve m), sc := fun p _ _ => .ok p.pars }

/-- Coordinates in units of a tenth, intensities in units of a third; a baseline's parameters that are no position are intensities. -/
def exOther : ℕ → List (String × ℕ) → ℕ → ℝ := fun _ d i => if (d.find? (fun kv => kv.1 == "position")).map (fun kv => kv.2) = some i then 10 else 3

theorem exOther_units : OtherUnits 10 exOther where
  ne f d i := by
    unfold exOther
    split <;> norm_num
  position f d kv h := by
    unfold exOther
    rw [h]
    simp

theorem halving_alike {T : Table} : RestAlike (change 10 3 T exOther) halving halving where
  as l := mergeAs_scaled (by norm_num : (0 : ℝ) < 10) l
  asY l := mergeAs_scaled (by norm_num : (0 : ℝ) < 3) l
  pick _ := rfl
  kind _ := rfl
  float _ := rfl
  float' _ := rfl
  sc p x s _ := rfl
  opt c m := by
    show (halve _, halve _) = _
    rw [halve_units]
    rfl
  packed c m := ⟨halve_packed m, halve_packed m⟩

theorem exDefs_alike {T : Table} : DefaultsAlike (change 10 3 T exOther) exDefs exDefs := ⟨fun _ _ _ => rfl, fun _ => rfl, rfl, rfl, rfl⟩

example := c104_package (by norm_num : (0 : ℝ) < 10) (by norm_num : (0 : ℝ) < 3) exOther_units (halving_alike (T := exTable)) (exDefs_alike (T := exTable)) exHeap 3 1 exVars

example (o : Obj ℝ) (v : ℝ) :=
  c104_estimate_peak (change_sensible (by norm_num : (0 : ℝ) < 10) (by norm_num : (0 : ℝ) < 3) exOther_units)
    (package_alike (by norm_num : (0 : ℝ) < 10) (by norm_num : (0 : ℝ) < 3) exOther_units (halving_alike (T := exTable))) exDefs_alike o v true

example (o : Obj ℝ) :=
  c104_fit_single (change_sensible (by norm_num : (0 : ℝ) < 10) (by norm_num : (0 : ℝ) < 3) exOther_units)
    (package_alike (by norm_num : (0 : ℝ) < 10) (by norm_num : (0 : ℝ) < 3) exOther_units (halving_alike (T := exTable))) exDefs_alike o

/-- The converted data: five points from 0 to 40. -/
example : ((change 10 3 exTable exOther).vars exVars).x = some [0, 10, 20, 30, 40] ∧ ((change 10 3 exTable exOther).vars exVars).y = some [0, 9, 15, 6, 0] ∧
    ((change 10 3 exTable exOther).vars exVars).cres = some 10 := by
  simp only [Change.vars, exVars, Option.map_some, Change.xs, Change.ys, change, List.map_cons, List.map_nil]
  norm_num

/-- The converted peak: at 30, ten times as wide, of thirty times the area. -/
example {x w b : ℝ} (h : Reported 2 exPeak x w b) : Reported 20 ((change 10 3 exTable exOther).part exPeak) (10 * x) (10 * w) (30 * b) := by
  have := c104_reported (T := exTable) (wo := exOther) (by norm_num : (0 : ℝ) < 10) (by norm_num : (0 : ℝ) < 3) (f := 5) (p := exPeak) rfl rfl h
  have e1 : (exTable 5).1 = .gaussian := rfl
  have e2 : (10 : ℝ) * (exTable 5).2 = 20 := by show (10 : ℝ) * 2 = 20; norm_num
  rw [e2, e1] at this
  have e3 : (10 : ℝ) * 3 = 30 := by norm_num
  simp only [e3] at this
  exact this

end Verif.Parts.Units
