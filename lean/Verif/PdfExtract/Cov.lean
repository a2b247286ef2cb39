import Verif.PdfExtract.Shape
import Verif.Extract.CovExample

/-!
# Property C102: the covariance that `PDFPeakExtraction.extract` and `.fit` return

## Specification

`Reports N G st c c'`: what a covariance object `st` says about a last fit of the cluster `c`, which made it `c'`.
The model of the two calls is `PdfExtract/Model.lean`, with the covariance object of the last fit.
-/

set_option linter.unusedSectionVars false

namespace Verif.Parts.PdfExtract

open Verif.Py Verif.PeakList Verif.Extraction Verif.Pdf Verif.Parts.Extract Verif.Parts.ModelCluster Verif.Parts.Covariance

variable {K : Type} [Field K] [LinearOrder K]

/-- The last fit, with its covariance object — pdfpeakextraction.py:543-544. -/
def lastFit (N : Numerics K) (G : Part K → Res (ℕ → ℕ → K)) (r : Res (Cluster K)) : Res (Cluster K × MC K) :=
  match r with
  | .error e => .error e
  | .ok c =>
    match clusterFit N G (some "default_output") { fitbaseline := true } c MC.empty with
    | (.error e, _, _) => .error e
    | (.ok _, c', st) => .ok (c', st)

/-- `extract()` until the last fit — pdfpeakextraction.py:334-541; `none`: not finished after `n` resamplings. -/
def beforeLastPdf (N : Numerics K) (S : Sampler K) (D : Defaults K) (n : ℕ) (o : PObj K) : Option (Res (Cluster K)) :=
  match pdefaultvars S.pi D o.vars with
  | (.error e, _) => some (.error e)
  | (.ok (), s) =>
    match begun (codeWorld N) o.heap S D s with
    | .error e => some (.error e)
    | .ok (P, g, c) => refine (codeWorld N) o.heap S D s P n g c

/-- `extract()` — pdfpeakextraction.py:334-556: the new `extracted` and the covariance; `none`: not finished after `n` resamplings. -/
def extractCovPdf (N : Numerics K) (G : Part K → Res (ℕ → ℕ → K)) (S : Sampler K) (D : Defaults K) (n : ℕ) (o : PObj K) :
    Option (Res (Cluster K × MC K)) :=
  (beforeLastPdf N S D n o).map (lastFit N G)

/-- `fit()` — pdfpeakextraction.py:558-638: the new `extracted` and the covariance. -/
def fitCovPdf (N : Numerics K) (G : Part K → Res (ℕ → ℕ → K)) (S : Sampler K) (D : Defaults K) (o : PObj K) : Res (Cluster K × MC K) :=
  match pdefaultvars S.pi D o.vars with
  | (.error e, _) => .error e
  | (.ok (), s) =>
    match fitVars S D s with
    | .error e => .error e
    | .ok t => fitSingleCov N G D ⟨t, o.heap, none⟩

variable [IsStrictOrderedRing K]

/-- What the covariance object `st` says after the last fit of a cluster, with peaks `m` before it, that became `c'`: it is
undefined; or it describes the parts `m0` and perhaps `bl`, with the matrix and the deviations that the optimiser returned for some parts
of the data of the result, and either these were kept - every peak of the result
is one of `m0`, and they are `m0` if none was removed and `m0` is in order - or they were rejected, and the result has the
peaks from before. -/
def Reports (N : Numerics K) (G : Part K → Res (ℕ → ℕ → K)) (st : MC K) (c c' : Cluster K) : Prop :=
  st = MC.empty ∨
  ∃ (m0 : List (Part K)) (bl : Option (Part K)) (covx : List (List K)) (fvec : List K),
    (∃ ps x ier, (N.opt c ps).1.outcome = .done x ier (some covx) fvec ∨ (N.opt c ps).2.outcome = .done x ier (some covx) fvec) ∧
    Describes G (some "default_output") st (m0 ++ bl.toList) c'.r.length covx fvec ∧
    ((c'.model.Subperm m0 ∧ (bl = none ∨ bl = c'.baseline) ∧
        (m0.Pairwise (fun a b => pos a < pos b) → c'.model.length = m0.length → c'.model = m0)) ∨
      (c'.baseline = c.baseline ∧ (c.model ≠ [] → c'.model = c.model)))

/-! ## Lemmas -/

/-- What a fit that was asked for the covariance returns, in any case. -/
theorem reports_of (N : Numerics K) (hS : Sorting N) (hQ : Squares N) (G : Part K → Res (ℕ → ℕ → K)) (o : Opts)
    (c : Cluster K) (hf : ProperFuncs N c.funcs) (hm : ∀ p ∈ c.model, Proper p)
    (hb : ∀ b, c.baseline = some b → 0 < b.npars false → Proper b)
    {r : Option (Evaluator.Ev K)} {c' : Cluster K} {st' : MC K}
    (h : clusterFit N G (some "default_output") o c MC.empty = (.ok r, c', st')) : Reports N G st' c c' := by
  have hr : c'.r = c.r := by
    obtain ⟨-, s2⟩ := c97_same_fit N hS hQ G (some "default_output") o c MC.empty hf hm hb
    obtain ⟨a, -, -⟩ := fit_data (code_ctame N hS c) o c
    rw [h] at s2
    simp only at s2
    rw [s2]
    exact a.r
  cases r with
  | some q =>
    obtain ⟨c1, hs, -, hp, h0, h1⟩ := c97_kept N hS hQ G (some "default_output") o c MC.empty hf hm hb h
    by_cases hfree : npars (fitParts o c1) false = 0
    · exact Or.inl (h0 hfree)
    · obtain ⟨m0, x, ier, covx, fvec, ho, hd, -, hsub, hord⟩ := h1 (by omega)
      by_cases hbl : (fitBaseline o c1).isSome = true
      · rw [if_pos hbl] at hd
        exact Or.inr ⟨m0, c'.baseline, covx, fvec, ⟨_, x, ier, ho⟩, by rw [hr]; exact hd, Or.inl ⟨hsub, Or.inr rfl, hord⟩⟩
      · rw [if_neg hbl] at hd
        exact Or.inr ⟨m0, none, covx, fvec, ⟨_, x, ier, ho⟩, by rw [hr]; exact hd, Or.inl ⟨hsub, Or.inl rfl, hord⟩⟩
  | none =>
    by_cases hu : ∀ c1, started (codeEnv N c) o c = some c1 →
        ((codeWorld N).covLsq c (fitParts o c1)).1 ≠ .ok () ∨ npars (fitParts o c1) false = 0
    · left
      have := c97_untouched N hS hQ G (some "default_output") o c MC.empty hf hm hb hu
      rw [h] at this
      exact this
    · push Not at hu
      obtain ⟨c1, hs, hok, hfree⟩ := hu
      obtain ⟨e1, e2, x, ier, covx, fvec, ho, hd⟩ := c97_reverted N hS hQ G (some "default_output") o c MC.empty hf hm hb h hs
        (qs := ((codeWorld N).covLsq c (fitParts o c1)).2) (Prod.ext hok rfl) (by omega)
      obtain ⟨-, p2, -, -, -, p6⟩ := started_proper N hS hf hm hs
      refine Or.inr ⟨((codeWorld N).covLsq c (fitParts o c1)).2, none, covx, fvec, ⟨_, x, ier, ho⟩, ?_, Or.inr ⟨by rw [e2, p2], ?_⟩⟩
      · rw [Option.toList_none, List.append_nil, hr]
        exact hd
      · intro hne
        rw [e1, p6 hne]

theorem new_proper {N : Numerics K} {fs : List ℕ} (hf : ProperFuncs N fs) {p : Part K} (h : New N.func fs p) : Proper p := by
  obtain ⟨⟨f, hf1, ho⟩, -, -, h4, h5⟩ := h
  obtain ⟨a1, a2⟩ := hf f hf1
  have hs : Sized p := by
    unfold Sized
    rw [ho]
    exact a2
  exact ⟨(h5 hs).1, by rw [h4]; simp, (h5 hs).2, by rw [ho]; exact a1, hs⟩

theorem proper_of_key {p q : Part K} (h : key p = key q) (hq : Proper q) : Proper p := by
  rw [← properKey_iff, h, properKey_iff]; exact hq

theorem proper_ripples {S : Sampler K} (hR : Ripples S) {q : K} {p : Part K} (h : Proper p) : Proper (ripplesIf S q p) := by
  unfold ripplesIf withRipples
  split
  · split
    · exact h
    · refine ⟨h.pars.trans (hR.npars _ _).symm, h.free.trans (hR.npars _ _).symm, h.floats, ?_, ?_⟩
      · simp only [hR.npars]; exact h.some
      · intro v i o r e
        apply h.sized v i o r
        simp only [hR.format] at e
        exact e
  · exact h

/-- The cluster before the last fit. -/
theorem beforePdf_proper (N : Numerics K) (hS : Sorting N) {S : Sampler K} (hU : Uniform S) (hR : Ripples S) {D : Defaults K}
    {n : ℕ} {o : PObj K} (hN : o.heap.peaks D.noPeaks = []) {x y : List K} (hr : Ready o.vars.base x y)
    (hss : ∀ v, o.vars.supersample = some v → 0 < v) (hf : ∀ i, ProperFuncs N (o.heap.funcs i))
    (hm : ∀ i, ∀ p ∈ o.heap.peaks i, Proper p) (hb : ∀ i, Whole (o.heap.base i)) {c : Cluster K}
    (h : beforeLastPdf N S D n o = some (.ok c)) :
    ProperFuncs N c.funcs ∧ (∀ p ∈ c.model, Proper p) ∧ ∀ b, c.baseline = some b → 0 < b.npars false → Proper b := by
  have hSane := c95_sane N hS
  have hE := (c95_estimates N).1
  unfold beforeLastPdf at h
  split at h
  · simp at h
  · rename_i s hs
    split at h
    · simp at h
    · rename_i P' g c0 hbg
      obtain ⟨P, hP⟩ : ∃ P, complete s = .ok P := by
        unfold begun at hbg
        obtain ⟨P, hP, -⟩ := bind_ok hbg
        exact ⟨P, hP⟩
      have hP := complete_ok hP
      obtain ⟨rfl, ti, k2, k3, k4⟩ := begun_steps hP hbg
      obtain ⟨hfrom, hx, hy, hl⟩ := from_of hr hs hP
      have he : SettledEff P'.eff := by rw [← hP.eff]; exact pdefault_settled hs
      have hss' : 0 < P'.ss := by
        rw [hfrom.ss]
        cases hv : o.vars.supersample with
        | none => simp
        | some v => exact hss v hv
      obtain ⟨eff, heff, hfd, hdata⟩ := firstGrid_ok hU hP he hss' (by rw [hx]; exact hr.inc)
        (by rw [hx, hy]; exact hr.leny) (by rw [hx]; exact hl) k2
      have hfo := initial_found hSane hE hN (innerVars_ok k3) hdata k4
      simp only [decide_true] at hfo
      obtain ⟨⟨b0, hb0, hb0'⟩, m, hm', hk, -⟩ := found_stage hfo
      obtain ⟨k, r, y, e, -, hst, -⟩ := refine_ok hSane hE hP he heff hfd hR hfo hk h
      have hpf : ProperFuncs N (o.heap.funcs P'.pf) := hf _
      refine ⟨fun f h => hpf f (hst.funcs f h), ?_, ?_⟩
      · intro p hp
        rcases hst.model with hk' | ⟨-, q, hq, hk'⟩
        · have := hk'.sub.subset (List.mem_map.2 ⟨p, hp, rfl⟩)
          obtain ⟨r', hr', e'⟩ := List.mem_map.1 this
          obtain ⟨q, hq, rfl⟩ := List.mem_map.1 hr'
          refine proper_of_key e'.symm (proper_ripples hR ?_)
          rcases List.mem_append.1 hq with hq | hq
          · exact hm _ q hq
          · exact new_proper hpf (hm' q hq)
        · have := hk'.sub.subset (List.mem_map.2 ⟨p, hp, rfl⟩)
          simp only [List.map_cons, List.map_nil, List.mem_singleton] at this
          exact proper_of_key this (new_proper hpf hq)
      · intro b hb1 hfree
        rw [hst.base, hb0, Option.some.injEq] at hb1
        subst hb1
        exact (whole_of_same hb0' (hb _)).proper hfree

theorem lastFit_fst (N : Numerics K) (hS : Sorting N) (hQ : Squares N) (G : Part K → Res (ℕ → ℕ → K)) (r : Res (Cluster K))
    (hp : ∀ c, r = .ok c → ProperFuncs N c.funcs ∧ (∀ p ∈ c.model, Proper p) ∧ ∀ b, c.baseline = some b → 0 < b.npars false → Proper b) :
    (lastFit N G r).map Prod.fst = finished (codeWorld N) r := by
  cases r with
  | error e => rfl
  | ok c =>
    obtain ⟨a1, a2, a3⟩ := hp c rfl
    obtain ⟨s1, s2⟩ := c97_same_fit N hS hQ G (some "default_output") { fitbaseline := true } c MC.empty a1 a2 a3
    unfold lastFit finished fitted
    simp only
    generalize clusterFit N G (some "default_output") { fitbaseline := true } c MC.empty = X at s1 s2 ⊢
    generalize ModelCluster.fit ((final (codeWorld N)).env c) { fitbaseline := true } c = Y at s1 s2 ⊢
    obtain ⟨x1, x2, x3⟩ := X
    obtain ⟨y1, y2, y3⟩ := Y
    simp only at s1 s2
    subst s1 s2
    cases x1 <;> rfl

theorem extract_before (N : Numerics K) (S : Sampler K) (D : Defaults K) (n : ℕ) (o : PObj K) :
    (extract (codeWorld N) S D n o).map (fun r => r.1.map (fun _ => r.2.extracted)) =
      ((beforeLastPdf N S D n o).map (finished (codeWorld N))).map (fun r => r.map some) := by
  unfold extract beforeLastPdf extracted
  generalize pdefaultvars S.pi D o.vars = dv
  obtain ⟨u, s⟩ := dv
  cases u with
  | error e => rfl
  | ok u =>
    simp only
    generalize begun (codeWorld N) o.heap S D s = b
    cases b with
    | error e => rfl
    | ok v =>
      obtain ⟨P, g, c⟩ := v
      simp only [Option.map_map]
      congr 1
      funext r
      simp only [Function.comp]
      generalize finished (codeWorld N) r = f
      cases f <;> rfl

/-! ## Theorems -/

/-- **C102.** `extract()` returns, with the model that it leaves in the object (C81), a covariance object; asking for it does not
change the result: `extractCovPdf` ends, raises and answers as `extract` does. -/
theorem c102_same (N : Numerics K) (hS : Sorting N) (hQ : Squares N) (G : Part K → Res (ℕ → ℕ → K)) {S : Sampler K} (hU : Uniform S)
    (hR : Ripples S) {D : Defaults K} (n : ℕ) (o : PObj K) (hN : o.heap.peaks D.noPeaks = []) {x y : List K} (hr : Ready o.vars.base x y)
    (hss : ∀ v, o.vars.supersample = some v → 0 < v) (hf : ∀ i, ProperFuncs N (o.heap.funcs i))
    (hm : ∀ i, ∀ p ∈ o.heap.peaks i, Proper p) (hb : ∀ i, Whole (o.heap.base i)) :
    (extractCovPdf N G S D n o).map (fun r => r.map (fun v => some v.1)) =
      (extract (codeWorld N) S D n o).map (fun r => r.1.map (fun _ => r.2.extracted)) := by
  rw [extract_before]
  unfold extractCovPdf
  have hp := fun c => beforePdf_proper N hS hU hR hN hr hss hf hm hb (n := n) (c := c)
  cases hq : beforeLastPdf N S D n o with
  | none => rfl
  | some r =>
    simp only [Option.map_some, Option.some.injEq]
    have := lastFit_fst N hS hQ G r (fun c h => hp c (by rw [hq, h]))
    rw [← this]
    cases lastFit N G r <;> rfl

/-- **C102.** What the covariance object that `extract()` returns says: it is undefined; or it describes parts that the last
fit, to the data of the result, kept or rejected. -/
theorem c102_extract (N : Numerics K) (hS : Sorting N) (hQ : Squares N) (G : Part K → Res (ℕ → ℕ → K)) {S : Sampler K} (hU : Uniform S)
    (hR : Ripples S) {D : Defaults K} {n : ℕ} {o : PObj K} (hN : o.heap.peaks D.noPeaks = []) {x y : List K} (hr : Ready o.vars.base x y)
    (hss : ∀ v, o.vars.supersample = some v → 0 < v) (hf : ∀ i, ProperFuncs N (o.heap.funcs i))
    (hm : ∀ i, ∀ p ∈ o.heap.peaks i, Proper p) (hb : ∀ i, Whole (o.heap.base i)) {c' : Cluster K} {st : MC K}
    (h : extractCovPdf N G S D n o = some (.ok (c', st))) :
    ∃ c, beforeLastPdf N S D n o = some (.ok c) ∧ Reports N G st c c' := by
  unfold extractCovPdf at h
  rw [Option.map_eq_some_iff] at h
  obtain ⟨r, hq, h⟩ := h
  unfold lastFit at h
  split at h
  · simp at h
  · rename_i c
    obtain ⟨a1, a2, a3⟩ := beforePdf_proper N hS hU hR hN hr hss hf hm hb hq
    refine ⟨c, hq, ?_⟩
    split at h
    · simp at h
    · rename_i u c1 st1 hX
      simp only [Except.ok.injEq, Prod.mk.injEq] at h
      obtain ⟨rfl, rfl⟩ := h
      exact reports_of N hS hQ G _ c a1 a2 a3 hX

/-- **C102.** `fit()` answers as in C82, and returns a covariance object that is undefined, or describes the initial peaks and the
baseline as the fit made them, kept or rejected. -/
theorem c102_fit (N : Numerics K) (hS : Sorting N) (hQ : Squares N) (G : Part K → Res (ℕ → ℕ → K)) {S : Sampler K} (hU : Uniform S) (D : Defaults K) (o : PObj K)
    {x y : List K} (hr : Ready o.vars.base x y) (hf : ∀ i, ProperFuncs N (o.heap.funcs i)) (hm : ∀ i, ∀ p ∈ o.heap.peaks i, Proper p)
    (hb : ∀ i, 0 < (o.heap.base i).npars false → Proper (o.heap.base i)) :
    (∀ e, fitCovPdf N G S D o = .error e → (fit (codeWorld N) S D o).1 = .error e) ∧
    ∀ c' st, fitCovPdf N G S D o = .ok (c', st) →
      (fit (codeWorld N) S D o).1 = .ok () ∧ (fit (codeWorld N) S D o).2.extracted = some c' ∧
      ∃ P c, From D o.vars P ∧ c.model = o.heap.peaks P.ip ∧ c.baseline = some (o.heap.base P.bl) ∧ Reports N G st c c' := by
  unfold fitCovPdf fit
  generalize hdv : pdefaultvars S.pi D o.vars = dv
  obtain ⟨u, s⟩ := dv
  cases u with
  | error e => exact ⟨fun e' h => by simpa using h, fun _ _ h => by simp at h⟩
  | ok u =>
    simp only
    cases hv : fitVars S D s with
    | error e => exact ⟨fun e' h => by simpa using h, fun _ _ h => by simp at h⟩
    | ok t =>
      simp only
      obtain ⟨h1, h2⟩ := c97_fit_single N hS hQ G D ⟨t, o.heap, none⟩ hf hm hb
      generalize hF : fitSingle (codeWorld N) D ⟨t, o.heap, none⟩ = F at h1 h2 ⊢
      obtain ⟨u1, i⟩ := F
      constructor
      · intro e he
        have := h1 e he
        simp only at this
        subst this
        rfl
      · intro c' st h
        obtain ⟨e1, e2, t', ip, bl, pf, c, r, d1, d2, d3, d4, d5, d6, d7, d8⟩ := h2 c' st h
        simp only at e1 e2
        subst e1
        obtain ⟨P, -, g, hfrom, -, -, -, hin⟩ := fitVars_ok hU hr hdv hv
        simp only at d1
        rw [hin.fix, Prod.mk.injEq] at d1
        obtain ⟨-, rfl⟩ := d1
        rw [hin.ip, Option.some.injEq] at d2
        rw [hin.bl, Option.some.injEq, Base.inst.injEq] at d3
        subst d2 d3
        refine ⟨rfl, e2, P, c, hfrom, d5, d6, reports_of N hS hQ G _ c ?_ ?_ ?_ d8⟩
        · rw [d7]; exact hf pf
        · rw [d5]; exact hm _
        · rw [d6]; intro b' h; cases h; exact hb _

/-! ## Instances -/

/-- The data of C81, without initial peaks. -/
def barePdf : PObj ℚ := ⟨pdfVars [0, 3, 5, 0, 0, 0, 0], bareHeap, none, none⟩

theorem pdf_ss (o : PObj ℚ) (h : o.vars.supersample = some 1) : ∀ v, o.vars.supersample = some v → 0 < v := by
  intro v hv
  rw [h, Option.some.injEq] at hv
  rw [← hv]; norm_num

def covPdfShown (r : Option (Res (Cluster ℚ × MC ℚ))) : Option (List (ℕ × ℚ) × List (Option ℚ)) :=
  match r with
  | some (.ok (c, st)) => some (c.model.map (fun p => (p.owner.id, pos p)), (List.range 3).map (fun i => (st.getvalue (.pair i 0)).toOption))
  | _ => none

/-- The search with AICc finds two peaks, gives them ripples, and its covariance object describes them. -/
example : covPdfShown (extractCovPdf (spots .aicc) unit linSampler dotDef 5 barePdf) =
    some ([(107, 1), (107, 2)], [some 1, some 2, none]) := by decide +kernel

example := c102_same (spots .aicc) (spots_sorting _) (spots_squares _) unit linSampler_uniform linSampler_ripples (D := dotDef) 5 barePdf rfl
  (pdfVars_ready _ rfl) (pdf_ss _ rfl) (fun _ => spots_funcs' _) (by intro i p hp; cases hp) dot_whole

example {c' : Cluster ℚ} {st : MC ℚ} (h : extractCovPdf (spots .aicc) unit linSampler dotDef 5 barePdf = some (.ok (c', st))) :=
  c102_extract (spots .aicc) (spots_sorting _) (spots_squares _) unit linSampler_uniform linSampler_ripples (D := dotDef) rfl
    (pdfVars_ready _ rfl) (pdf_ss _ rfl) (fun _ => spots_funcs' _) (by intro i p hp; cases hp) dot_whole h

/-- One spot as initial peak. -/
def spotPdf : PObj ℚ :=
  ⟨{ pdfVars [0, 3, 5, 0, 0, 0, 0] with base.initialPeaks := some 1 }, spotObj.heap, none, none⟩

theorem spotPdf_proper (i : ℕ) (p : Part ℚ) (hp : p ∈ spotPdf.heap.peaks i) : Proper p := by
  simp only [spotPdf, spotObj] at hp
  split at hp
  · exact proper_one _ _ p hp
  · cases hp

example := c102_fit (going [2, 5]) (going_sorting _) (going_squares _) unit linSampler_uniform dotDef spotPdf
  (x := [0, 1, 2, 3, 4, 5, 6]) (y := [0, 3, 5, 0, 0, 0, 0])
  ⟨rfl, rfl, ⟨[1/4, 1/4, 1/4, 1/4, 1/4, 1/4, 1/4], rfl, rfl⟩, by intro e h; simp [spotPdf, pdfVars, dotVars] at h, by decide +kernel, rfl⟩
  (fun _ => spots_funcs _) spotPdf_proper (by intro i h; exact absurd h (show ¬ 0 < 0 by omega))

example : covPdfShown (some (fitCovPdf (going [2, 5]) unit linSampler dotDef spotPdf)) = some ([(7, 2)], [some 2, none, none]) := by
  decide +kernel

/-- **C102 (finding).** The covariance that `fit()` returns can describe peaks that the object does not have: the fit goes
to position 3, which is worse than 2 and therefore taken back, but the returned object has 3. -/
theorem c102_rejected : Sorting (going [3, 4]) ∧ Squares (going [3, 4]) ∧
    covPdfShown (some (fitCovPdf (going [3, 4]) unit linSampler dotDef spotPdf)) = some ([(7, 2)], [some 3, none, none]) :=
  ⟨going_sorting _, going_squares _, by decide +kernel⟩

end Verif.Parts.PdfExtract
