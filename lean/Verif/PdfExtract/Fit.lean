import Verif.PdfExtract.Example
import Verif.Extract.Fitting

/-!
# C82: `PDFPeakExtraction.fit`
-/

set_option linter.unusedSectionVars false

namespace Verif.Parts.PdfExtract

open Verif.Py Verif.Extraction Verif.Pdf Verif.Parts.Extract Verif.Parts.ModelCluster

variable {K : Type} [Field K] [LinearOrder K] [IsStrictOrderedRing K]
variable {W : World K} {S : Sampler K} {D : Defaults K}

/-- The data of a fit: those in the range, with the uncertainties as they are, if qmax is 0 or Nyquist sampling is off;
else resampled at the Nyquist interval (the mean interval of the data if qmax is negative). -/
def FitData (S : Sampler K) (P : Par K) (eff r y e : List K) : Prop :=
  if P.q = 0 ∨ P.nyquist = false then Selected P eff 1 r y e
  else Sampled S P eff (if 0 < P.q then S.pi / P.q else (P.x1 - P.x0) / ((P.x.length : K) - 1)) r y e

theorem fitGrid_ok (hU : Uniform S) {t : PPX K} {P : Par K} (hP : Has t P) (he : SettledEff P.eff)
    (hinc : P.x.Pairwise (· < ·)) (hy : P.y.length = P.x.length) (hl : ∀ e, P.eff = .array e → e.length = P.x.length)
    {g : Grid K} (h : fitGrid S D t P = .ok g) :
    ∃ eff, P.eff = .array eff ∧ FitData S P eff g.1 g.2.1 g.2.2 ∧ Data g.1 g.2.1 g.2.2 := by
  unfold fitGrid at h
  split at h
  · simp at h
  · rename_i sl hsl
    unfold FitData
    by_cases hq : P.q = 0 ∨ P.nyquist = false
    · rw [if_pos hq] at h
      obtain ⟨eff, e1, e2⟩ := raw_ok hsl hinc hy hP.first hP.last hl h
      exact ⟨eff, e1, by rw [if_pos hq]; exact e2, e2.data hinc hy (hl eff e1)⟩
    rw [if_neg hq, resampledata_eq hP he] at h
    obtain ⟨eff, e1, e2⟩ := sampled_ok h
    refine ⟨eff, e1, by rw [if_neg hq]; exact e2, e2.data hU ?_⟩
    unfold drNyquist
    split
    · rename_i h'; exact div_pos hU.pi_pos h'
    · rename_i h'
      by_cases hone : P.x.length = 1
      · exfalso
        have hz : drNyquist S P = 0 := by
          unfold drNyquist drRaw; rw [if_neg h', hone]; simp
        have hg := e2.grid
        rw [hz, hU.zero] at hg
        exact hU.nonempty _ _ _ _ e2.values hg
      · exact drRaw_pos hinc hP.first hP.last hone

/-- The fitted cluster, by the user's data, variables and objects. -/
structure FitOutcome (S : Sampler K) (H : Heap K) (P : Par K) (eff : List K) (c : Cluster K) : Prop where
  data : FitData S P eff c.r c.y c.err
  whole : ∃ sl, c.slice = some sl ∧ sl.get c.r = c.r
  method : c.method = P.em
  funcs : ∀ f ∈ c.funcs, f ∈ H.funcs P.pf
  base : ∃ b, c.baseline = some b ∧ SamePeak b (H.base P.bl)
  peaks : (c.model.map key).Subperm ((H.peaks P.ip).map key)
  hard : ((c.model.filter (fun p => !p.removable)).map key).Perm (((H.peaks P.ip).filter (fun p => !p.removable)).map key)

theorem fitVars_ok (hU : Uniform S) {o : PObj K} {s : PPX K} {x y : List K} (hr : Ready o.vars.base x y)
    (hs : pdefaultvars S.pi D o.vars = (.ok (), s)) {t : PX K} (h : fitVars S D s = .ok t) :
    ∃ P eff g, From D o.vars P ∧ P.eff = .array eff ∧ FitData S P eff g.1 g.2.1 g.2.2 ∧ Data g.1 g.2.1 g.2.2 ∧
      Inner P g t := by
  unfold fitVars at h
  obtain ⟨P, hP, h⟩ := bind_ok h
  obtain ⟨g, hg, h⟩ := bind_ok h
  have hP := complete_ok hP
  obtain ⟨hfrom, hx, hy, hl⟩ := from_of hr hs hP
  have he : SettledEff P.eff := by rw [← hP.eff]; exact pdefault_settled hs
  obtain ⟨eff, e1, e2, e3⟩ := fitGrid_ok hU hP he (by rw [hx]; exact hr.inc) (by rw [hx, hy]; exact hr.leny)
    (by rw [hx]; exact hl) hg
  exact ⟨P, eff, g, hfrom, e1, e2, e3, innerVars_ok h⟩

/-- **C82.** `fit()` either raises, leaving no extracted model and no extraction type, or it leaves a model, of type "fit":
for the data of the range (resampled at the Nyquist interval if qmax is set and Nyquist sampling is on); its peaks are
the initial peaks with other parameter values — some removable ones may be missing, none is added, none gets ripples —
and its baseline is the given one with other parameter values. -/
theorem c82_fit (hS : Sane W) (hU : Uniform S) (o o' : PObj K) (u : Res Unit) (x y : List K)
    (hr : Ready o.vars.base x y) (h : fit W S D o = (u, o')) :
    (∀ e, u = .error e → o'.extracted = none ∧ o'.kind = none) ∧
    (u = .ok () → o'.kind = some .fit ∧ ∃ P eff c, From D o.vars P ∧ P.eff = .array eff ∧
      o'.extracted = some c ∧ FitOutcome S o.heap P eff c) := by
  unfold fit at h
  split at h
  · simp only [Prod.mk.injEq] at h
    obtain ⟨rfl, rfl⟩ := h
    exact ⟨fun _ _ => ⟨rfl, rfl⟩, fun h => by simp at h⟩
  · rename_i s hs
    split at h
    · simp only [Prod.mk.injEq] at h
      obtain ⟨rfl, rfl⟩ := h
      exact ⟨fun _ _ => ⟨rfl, rfl⟩, fun h => by simp at h⟩
    · rename_i t ht
      split at h
      · simp only [Prod.mk.injEq] at h
        obtain ⟨rfl, rfl⟩ := h
        exact ⟨fun _ _ => ⟨rfl, rfl⟩, fun h => by simp at h⟩
      · rename_i i hi
        simp only [Prod.mk.injEq] at h
        obtain ⟨rfl, rfl⟩ := h
        refine ⟨fun e he => by simp at he, fun _ => ⟨rfl, ?_⟩⟩
        obtain ⟨P, eff, g, hfrom, heff, hfd, hdata, hin⟩ := fitVars_ok hU hr hs ht
        obtain ⟨t', c, ip, hdv, -, hc, hres, hip, hsub, hhard⟩ := (c72_fit_single hS (o := ⟨t, o.heap, none⟩)
          (hin.ready hdata) hi).2 rfl
        have hdv' := hin.fix (D := D)
        simp only at hdv
        rw [hdv', Prod.mk.injEq] at hdv
        obtain ⟨-, rfl⟩ := hdv
        rw [hin.ip, Option.some.injEq] at hip
        subst hip
        refine ⟨P, eff, c, hfrom, heff, hc, ?_⟩
        obtain ⟨x0, x1, e, h0, h1, he, d1, d2, d3⟩ := hres.data
        obtain ⟨x0', x1', h0', h1', hrng⟩ := hin.rng
        rw [h0, Option.some.injEq] at h0'
        rw [h1, Option.some.injEq] at h1'
        subst h0' h1'
        have hro : rangeOf t x0 x1 = (x0, x1) := by unfold rangeOf; rw [hrng]; rfl
        rw [hin.eff] at he
        simp only [EffDy.array.injEq] at he
        subst he
        simp only at d1 d2 d3
        rw [hro] at d1 d2 d3
        simp only at d1 d2 d3
        rw [inRange_all hdata.inc h0 h1 rfl] at d1
        rw [inRange_all hdata.inc h0 h1 hdata.leny] at d2
        rw [inRange_all hdata.inc h0 h1 hdata.lene] at d3
        refine ⟨by rw [d1, d2, d3]; exact hfd, ?_, ?_, ?_, ?_, hsub, hhard⟩
        · obtain ⟨sl, k1, k2, -⟩ := hres.whole
          exact ⟨sl, k1, k2⟩
        · have := hres.method
          rw [hin.em, Option.some.injEq] at this
          exact this.symm
        · obtain ⟨pf, k1, k2⟩ := hres.funcs
          rw [hin.pf, Option.some.injEq] at k1
          subst k1
          exact k2
        · obtain ⟨bl, b', k1, k2, k3, -⟩ := hres.base
          rw [hin.bl] at k1
          simp only [Option.some.injEq, Base.inst.injEq] at k1
          subst k1
          exact ⟨b', k2, k3⟩

/-- **C82.** `fit()` works on the user's objects: whether it raises or not, of all peak lists only the one behind
`initial_peaks` and of all baselines only the one behind `baseline` can change. -/
theorem c82_objects (hU : Uniform S) (o o' : PObj K) (u : Res Unit) (x y : List K) (hr : Ready o.vars.base x y)
    (h : fit W S D o = (u, o')) :
    o'.heap.funcs = o.heap.funcs ∧
    (∀ j, j ≠ o.vars.base.initialPeaks.getD D.noPeaks → o'.heap.peaks j = o.heap.peaks j) ∧
    (∀ b j, o.vars.base.baseline = some (.inst b) → j ≠ b → o'.heap.base j = o.heap.base j) ∧
    (o.vars.base.baseline = none → ∀ j, j ≠ D.zeroBaseline → o'.heap.base j = o.heap.base j) := by
  unfold fit at h
  split at h
  · simp only [Prod.mk.injEq] at h
    obtain ⟨rfl, rfl⟩ := h
    exact ⟨rfl, fun _ _ => rfl, fun _ _ _ _ => rfl, fun _ _ _ => rfl⟩
  · rename_i s hs
    split at h
    · simp only [Prod.mk.injEq] at h
      obtain ⟨rfl, rfl⟩ := h
      exact ⟨rfl, fun _ _ => rfl, fun _ _ _ _ => rfl, fun _ _ _ => rfl⟩
    · rename_i t ht
      obtain ⟨P, eff, g, hfrom, heff, hfd, hdata, hin⟩ := fitVars_ok hU hr hs ht
      have key : ∀ v i, fitSingle W D ⟨t, o.heap, none⟩ = (v, i) → i.heap.funcs = o.heap.funcs ∧
          (∀ j, j ≠ o.vars.base.initialPeaks.getD D.noPeaks → i.heap.peaks j = o.heap.peaks j) ∧
          (∀ b j, o.vars.base.baseline = some (.inst b) → j ≠ b → i.heap.base j = o.heap.base j) ∧
          (o.vars.base.baseline = none → ∀ j, j ≠ D.zeroBaseline → i.heap.base j = o.heap.base j) := by
        intro v i hi
        obtain ⟨-, k1, k2, k3⟩ := c72_others_untouched (o := ⟨t, o.heap, none⟩) (hin.fix (D := D)) hi
        refine ⟨k1, fun j hj => k2 j ?_, fun b j hb hj => k3 j ?_, fun hb j hj => k3 j ?_⟩
        · rw [hin.ip, hfrom.ip]
          simpa using hj.symm
        · rw [hin.bl, hfrom.bl b hb]
          simpa using hj.symm
        · rw [hin.bl, hfrom.bl0 hb]
          simpa using hj.symm
      split at h
      · rename_i e i hi
        simp only [Prod.mk.injEq] at h
        obtain ⟨rfl, rfl⟩ := h
        exact key _ _ hi
      · rename_i i hi
        simp only [Prod.mk.injEq] at h
        obtain ⟨rfl, rfl⟩ := h
        exact key _ _ hi

/-- What the fit returned: functions, parameters, grid. -/
def seenFit (r : Res Unit × PObj ℚ) : Option (List (ℕ × List ℚ) × List ℚ) :=
  match r with
  | (.ok (), o) => o.extracted.map (fun c => (c.model.map (fun p => (p.owner.id, p.pars)), c.r))
  | _ => none

/-- Instance of C82: the initial peak is fitted to the data at the Nyquist interval; without Nyquist sampling, to all the
data; without initial peaks the model is empty. -/
example : Sane dotWorld ∧ Uniform linSampler ∧ Ready (pdfVars [0, 3, 5, 0, 0, 0, 0]).base [0, 1, 2, 3, 4, 5, 6] [0, 3, 5, 0, 0, 0, 0] ∧
    seenFit (fit dotWorld linSampler dotDef ⟨{ pdfVars [0, 3, 5, 0, 0, 0, 0] with base.initialPeaks := some 1 }, dotHeap, none, none⟩) =
      some ([(9, [2, 5])], [0, 1, 2, 3, 4, 5]) ∧
    seenFit (fit dotWorld linSampler dotDef ⟨{ pdfVars [0, 3, 5, 0, 0, 0, 0] with base.initialPeaks := some 1, nyquist := some false }, dotHeap, none, none⟩) =
      some ([(9, [2, 5])], [0, 1, 2, 3, 4, 5, 6]) ∧
    seenFit (fit dotWorld linSampler dotDef (pdfObj [0, 3, 5, 0, 0, 0, 0])) = some ([], [0, 1, 2, 3, 4, 5]) :=
  ⟨dotWorld_sane, linSampler_uniform, pdfVars_ready _ rfl, by decide +kernel, by decide +kernel, by decide +kernel⟩

end Verif.Parts.PdfExtract
