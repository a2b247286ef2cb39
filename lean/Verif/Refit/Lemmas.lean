import Verif.PdfExtract.Fit
import Verif.Extract.CodeProps
import Verif.Repeat.Lemmas

/-!
# Property C114: `PDFPeakExtraction.fit` again and again

## Specification
-/

set_option linter.unusedSectionVars false

namespace Verif.Parts.Refit

open Verif.Py Verif.PeakList Verif.Extraction Verif.Pdf Verif.Parts.ModelCluster Verif.Parts.Extract Verif.Parts.PdfExtract

variable {K : Type} [Field K] [LinearOrder K] [IsStrictOrderedRing K]

/-- The object after `n` calls of `fit()`, whatever they end with — pdfpeakextraction.py:558-638. -/
def fits (W : World K) (S : Sampler K) (D : Defaults K) : ℕ → PObj K → PObj K
  | 0, o => o
  | n + 1, o => (PdfExtract.fit W S D (fits W S D n o)).2

/-- The objects of the user hold what was extracted: the list of initial peaks, up to order, the peaks, the baseline the
baseline. -/
def Holds (o : PObj K) : Prop :=
  ∃ c ip bl, o.extracted = some c ∧ o.vars.base.initialPeaks = some ip ∧ o.vars.base.baseline = some (.inst bl) ∧
    c.model.Perm (o.heap.peaks ip) ∧ c.baseline = some (o.heap.base bl)

/-- The fit that ended in `o'` was not taken: what was extracted are the peaks and the baseline as they were in `o`. -/
def AsBefore (o o' : PObj K) : Prop :=
  ∃ c ip bl, o'.extracted = some c ∧ o'.vars.base.initialPeaks = some ip ∧ o'.vars.base.baseline = some (.inst bl) ∧
    c.model = o.heap.peaks ip ∧ c.baseline = some (o.heap.base bl)

/-- The cost (C95) of what was extracted. -/
def costOf (N : Numerics K) (o : PObj K) : Option K := o.extracted.map (fun c => cost N c c.model c.baseline)

/-! ## The steps of a fit -/

variable {W : World K} {S : Sampler K} {D : Defaults K}

theorem fit_split {o o' : PObj K} (h : PdfExtract.fit W S D o = (.ok (), o')) :
    ∃ s P g t i, pdefaultvars S.pi D o.vars = (.ok (), s) ∧ complete s = .ok P ∧ fitGrid S D s P = .ok g ∧
      innerVars D P g = .ok t ∧ fitSingle W D ⟨t, o.heap, none⟩ = (.ok (), i) ∧ o' = ⟨s, i.heap, i.extracted, some .fit⟩ := by
  unfold PdfExtract.fit at h
  split at h
  · simp at h
  · rename_i s hs
    split at h
    · simp at h
    · rename_i t ht
      split at h
      · simp at h
      · rename_i i hi
        simp only [Prod.mk.injEq, true_and] at h
        unfold fitVars at ht
        obtain ⟨P, hP, ht⟩ := bind_ok ht
        obtain ⟨g, hg, ht⟩ := bind_ok ht
        exact ⟨s, P, g, t, i, hs, hP, hg, ht, hi, h.symm⟩

/-- The cluster that is fitted. -/
def start (W : World K) (H : Heap K) (P : Par K) (g : Grid K) : Res (Cluster K) :=
  newCluster W ⟨g.1, g.2.1, g.2.2, H.base P.bl, H.peaks P.ip, P.cres, P.em, H.funcs P.pf⟩ (H.peaks P.ip) (some (H.base P.bl))
    g.1 g.2.1 g.2.2 none

/-- An ok fit, by the settled variables, the data and the cluster that is fitted. -/
structure Run (W : World K) (S : Sampler K) (D : Defaults K) (o : PObj K) (s : PPX K) (P : Par K) (g : Grid K) (c c' : Cluster K) (o' : PObj K) : Prop where
  vars : pdefaultvars S.pi D o.vars = (.ok (), s)
  par : complete s = .ok P
  grid : fitGrid S D s P = .ok g
  made : start W o.heap P g = .ok c
  fits : fitted (final W) { fitbaseline := true, estimate := false } c = .ok c'
  after : o' = ⟨s, touched W o.heap P.ip P.bl { fitbaseline := true, estimate := false } c, some c', some .fit⟩
  single : ∃ t i, Inner P g t ∧ fitSingle W D ⟨t, o.heap, none⟩ = (.ok (), i) ∧ i.extracted = some c' ∧
    jobOf o.heap t = .ok ⟨g.1, g.2.1, g.2.2, o.heap.base P.bl, o.heap.peaks P.ip, P.cres, P.em, o.heap.funcs P.pf⟩

theorem run_of {o o' : PObj K} {s : PPX K} {P : Par K} {g : Grid K} (hs : pdefaultvars S.pi D o.vars = (.ok (), s))
    (hP : complete s = .ok P) (hg : fitGrid S D s P = .ok g) (hd : Data g.1 g.2.1 g.2.2)
    (h : PdfExtract.fit W S D o = (.ok (), o')) : ∃ c c', Run W S D o s P g c c' o' := by
  obtain ⟨s', P', g', t, i, hs', hP', hg', ht, hi, rfl⟩ := fit_split h
  rw [hs, Prod.mk.injEq] at hs'
  obtain ⟨-, rfl⟩ := hs'
  rw [hP, Except.ok.injEq] at hP'
  subst hP'
  rw [hg, Except.ok.injEq] at hg'
  subst hg'
  have hin := innerVars_ok ht
  obtain ⟨t', J, ip, bl, c, c', hdv, hJ, hip, hbl, hc, hf, rfl⟩ := fitSingle_ok hi
  rw [hin.fix (D := D), Prod.mk.injEq] at hdv
  obtain ⟨-, rfl⟩ := hdv
  rw [hin.ip, Option.some.injEq] at hip
  rw [hin.bl] at hbl
  simp only [Option.some.injEq, Base.inst.injEq] at hbl
  subst hip hbl
  have hne : J.x ≠ [] := by
    intro h0
    unfold newCluster changeSlice updateNever at hc
    simp [h0, excess, Slice.get, getSlice, maxNeg] at hc
  have hJ0 := hin.job (D := D) hd hJ hne
  subst hJ0
  exact ⟨c, c', hs, hP, hg, hc, hf, rfl, t, _, hin, hi, rfl, hJ⟩

/-- The first ok fit of an object with data. -/
theorem run_first (hU : Uniform S) {o o' : PObj K} {x y : List K} (hr : Ready o.vars.base x y)
    (h : PdfExtract.fit W S D o = (.ok (), o')) :
    ∃ s P g c c', Data g.1 g.2.1 g.2.2 ∧ Run W S D o s P g c c' o' := by
  obtain ⟨s, P, g, t, i, hs, hP, hg, ht, hi, e⟩ := fit_split h
  have hft : fitVars S D s = .ok t := by
    unfold fitVars
    simp only [bind, Except.bind, hP, hg]
    exact ht
  obtain ⟨P', eff, g', -, -, -, hd, hin⟩ := fitVars_ok hU hr hs hft
  have hin0 := innerVars_ok ht
  have e1 : g.1 = g'.1 := Option.some.inj (hin0.x.symm.trans hin.x)
  have e2 : g.2.1 = g'.2.1 := Option.some.inj (hin0.y.symm.trans hin.y)
  have e3 : g.2.2 = g'.2.2 := EffDy.array.inj (hin0.eff.symm.trans hin.eff)
  rw [← e1, ← e2, ← e3] at hd
  obtain ⟨c, c', hrun⟩ := run_of hs hP hg hd h
  exact ⟨s, P, g, c, c', hd, hrun⟩

theorem settled_vars (pi : K) {D : Defaults K} {v s : PPX K} (h : pdefaultvars pi D v = (.ok (), s)) :
    pdefaultvars pi D s = (.ok (), s) := by
  have := Repeat.pdefaultvars_again pi D v
  rw [h] at this
  exact this

/-- Every fit leaves the variables as `defaultvars` leaves them. -/
theorem fit_vars (o : PObj K) : (PdfExtract.fit W S D o).2.vars = (pdefaultvars S.pi D o.vars).2 := by
  unfold PdfExtract.fit
  split
  · rename_i e s hs; rw [hs]
  · rename_i s hs
    rw [hs]
    split
    · rfl
    · split <;> rfl

/-- An ok fit of an object that an ok fit has left: the same variables and data. -/
theorem run_next {o o1 o2 : PObj K} {s : PPX K} {P : Par K} {g : Grid K} {c c' : Cluster K} (hd : Data g.1 g.2.1 g.2.2)
    (h1 : Run W S D o s P g c c' o1) (h2 : PdfExtract.fit W S D o1 = (.ok (), o2)) :
    ∃ d d', Run W S D o1 s P g d d' o2 := by
  have hv : o1.vars = s := by rw [h1.after]
  exact run_of (by rw [hv]; exact settled_vars S.pi h1.vars) h1.par h1.grid hd h2

theorem Run.has {o o' : PObj K} {s : PPX K} {P : Par K} {g : Grid K} {c c' : Cluster K} (h : Run W S D o s P g c c' o') : Has s P :=
  complete_ok h.par

/-- The cluster that is fitted: the data, the peaks and the baseline of the objects. -/
structure Begun (H : Heap K) (P : Par K) (g : Grid K) (c : Cluster K) : Prop where
  r : c.r = g.1
  y : c.y = g.2.1
  err : c.err = g.2.2
  slice : c.slice = some ⟨none, g.1.length⟩
  method : c.method = P.em
  model : c.model = H.peaks P.ip
  base : c.baseline = some (H.base P.bl)

theorem begun_of {H : Heap K} {P : Par K} {g : Grid K} {c : Cluster K} (h : start W H P g = .ok c) : Begun H P g c := by
  obtain ⟨hof, hsl, hm, -⟩ := newCluster_of (Q := fun _ => True) (fun _ _ => trivial) h
  exact ⟨hof.r, hof.y, hof.err, hsl, hof.method, hm, hof.bl⟩

theorem fitted_eq {o : Opts} {c c' : Cluster K} (h : fitted (final W) o c = .ok c') :
    c' = (ModelCluster.fit ((final W).env c) o c).2.1 ∧ ∃ q, (ModelCluster.fit ((final W).env c) o c).1 = .ok q := by
  unfold fitted at h
  split at h
  · simp at h
  · rename_i q _ _ heq
    rw [heq]
    exact ⟨by simpa using h.symm, q, rfl⟩

/-- What the evaluator reads of a cluster beside peaks and baseline. -/
structure SameGrid (c d : Cluster K) : Prop where
  r : d.r = c.r
  y : d.y = c.y
  err : d.err = c.err
  slice : d.slice = c.slice
  method : d.method = c.method

theorem cost_same (N : Numerics K) {c d : Cluster K} (h : SameGrid c d) (m : List (Part K)) (b : Option (Part K)) :
    cost N d m b = cost N c m b := by
  unfold cost inSlice
  rw [h.r, h.y, h.err, h.slice, h.method]

theorem cost_perm (N : Numerics K) (c : Cluster K) {m m' : List (Part K)} (h : m.Perm m') (b : Option (Part K)) :
    cost N c m b = cost N c m' b := by
  unfold cost
  rw [counted_perm h, curve_perm N.val (h.append_left b.toList)]

theorem Run.same (hS : Sane W) {o o' : PObj K} {s : PPX K} {P : Par K} {g : Grid K} {c c' : Cluster K}
    (h : Run W S D o s P g c c' o') : SameGrid c c' := by
  obtain ⟨hc, -⟩ := fitted_eq h.fits
  obtain ⟨hs, -, -⟩ := fit_data (hS.ctame c) { fitbaseline := true, estimate := false } c
  rw [← hc] at hs
  exact ⟨hs.r, hs.y, hs.err, hs.slice, hs.method⟩

theorem Begun.grid {H H' : Heap K} {P : Par K} {g : Grid K} {c d : Cluster K} (h : Begun H P g c) (h' : Begun H' P g d) : SameGrid c d :=
  ⟨by rw [h.r, h'.r], by rw [h.y, h'.y], by rw [h.err, h'.err], by rw [h.slice, h'.slice], by rw [h.method, h'.method]⟩

/-- A fit does not raise the cost of what is in the objects. -/
theorem run_not_worse {N : Numerics K} {o o' : PObj K} {s : PPX K} {P : Par K} {g : Grid K} {c c' : Cluster K}
    (hd : Data g.1 g.2.1 g.2.2) (h : Run (codeWorld N) S D o s P g c c' o') :
    cost N c c'.model c'.baseline ≤ cost N c (o.heap.peaks P.ip) (some (o.heap.base P.bl)) := by
  obtain ⟨t, i, hin, hi, he, hJ⟩ := h.single
  obtain ⟨d, hde, ⟨v, w, e1, e2, e3⟩, -⟩ := c72_not_worse (o := ⟨t, o.heap, none⟩) hi (hin.fix (D := D)) hJ h.made (codeEnv_comparable N c)
  rw [he, Option.some.injEq] at hde
  subst hde
  have hb := begun_of h.made
  have hev : Even c := ⟨by rw [hb.y, hb.r]; exact hd.leny, by rw [hb.err, hb.r]; exact hd.lene⟩
  have q1 : ((codeWorld N).env c).quality c'.model c'.baseline = rate N c c'.model c'.baseline 0 := rfl
  have q2 : ((codeWorld N).env c).quality (o.heap.peaks P.ip) (some (o.heap.base P.bl)) = rate N c (o.heap.peaks P.ip) (some (o.heap.base P.bl)) 0 := rfl
  rw [q1, rate_cost N hev, Option.some.injEq] at e1
  have e2' : (rate N c (o.heap.peaks P.ip) (some (o.heap.base P.bl)) 0).stat = some w := e2
  rw [rate_cost N hev, Option.some.injEq] at e2'
  rw [q1, (rate_named N c _ _ 0).2.1] at e3
  rw [e1, e2']
  simpa using e3

end Verif.Parts.Refit
