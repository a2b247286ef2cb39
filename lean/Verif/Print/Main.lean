import Verif.Print.Model
import Verif.Convert.Main
import Verif.Extract.PlotProps

/-!
# Property C117: what is printed of a result

## Specification
-/

set_option linter.unusedSectionVars false

namespace Verif.Parts.Print

open Verif.Py Verif.PeakList Verif.Extraction Verif.Parts.ModelCluster Verif.Parts.Extract

variable {K : Type} [Field K] [LinearOrder K] [IsStrictOrderedRing K]

/-- The function of the part has a text for the parameters of the part. -/
def Printable (p : Part K) : Prop := ∃ v, p.owner.transform p.pars (some "internal") (some "default_output") = .ok v

/-- The line of the part shows its parameters in the default output format. -/
def Line (p : Part K) (v : List K) : Prop := p.owner.transform p.pars (some "internal") (some "default_output") = .ok v

/-- The text of a cluster: its slice; the sum of its squared deviations from the data plus the penalty for the free parameters of its
peaks; its baseline; its peaks, one line each, in their order. -/
structure Describes (val : Part K → K → K) (kind : Evaluator.Kind) (c : Cluster K) (r y e : List K) (t : ClusterText K) : Prop where
  slice : t.slice = c.slice
  quality : t.quality = some (deviation (curve val (c.baseline.toList ++ c.model)) r y e + penalty kind (counted c.model false) r.length)
  noBaseline : c.baseline = none → t.baseline = none
  baseline : ∀ b, c.baseline = some b → ∃ v, t.baseline = some v ∧ Line b v
  peaks : List.Forall₂ Line c.model t.peaks

/-! ## Lemmas -/

theorem modelStr_lines : ∀ ps : List (Part K), (∀ p ∈ ps, Printable p) → ∃ vs, modelStr ps = .ok vs ∧ List.Forall₂ Line ps vs
  | [], _ => ⟨[], rfl, .nil⟩
  | p :: ps, h => by
    obtain ⟨v, hv⟩ := h p (List.mem_cons_self)
    obtain ⟨vs, h1, h2⟩ := modelStr_lines ps (fun q hq => h q (List.mem_cons_of_mem _ hq))
    refine ⟨v :: vs, ?_, .cons hv h2⟩
    have hp : partStr p = .ok v := hv
    unfold modelStr
    rw [hp, h1]
    rfl

theorem modelStr_error : ∀ ps : List (Part K), ∀ e, modelStr ps = .error e →
    ∃ before p after, ps = before ++ p :: after ∧ (∀ q ∈ before, Printable q) ∧ p.owner.transform p.pars (some "internal") (some "default_output") = .error e
  | [], e, h => by cases h
  | p :: ps, e, h => by
    unfold modelStr at h
    cases hp : partStr p with
    | error e' =>
      rw [hp] at h
      have : e' = e := by simpa [bind, Except.bind] using h
      subst this
      exact ⟨[], p, ps, rfl, by simp, hp⟩
    | ok v =>
      rw [hp] at h
      cases hm : modelStr ps with
      | ok vs => rw [hm] at h; cases h
      | error e' =>
        rw [hm] at h
        have : e' = e := by simpa [bind, Except.bind] using h
        subst this
        obtain ⟨b, q, a, rfl, h1, h2⟩ := modelStr_error ps e' hm
        refine ⟨p :: b, q, a, rfl, ?_, h2⟩
        intro x hx
        rcases List.mem_cons.1 hx with rfl | hx
        · exact ⟨v, hp⟩
        · exact h1 x hx

/-! ## Theorems -/

/-- **C117.** `str` of a model has one line per part, in order; it raises exactly what the first function raises that does not accept its
own parameters. -/
theorem c117_model (ps : List (Part K)) :
    (∀ vs, modelStr ps = .ok vs ↔ List.Forall₂ Line ps vs) ∧
    ∀ e, modelStr ps = .error e → ∃ before p after, ps = before ++ p :: after ∧ (∀ q ∈ before, Printable q) ∧
      p.owner.transform p.pars (some "internal") (some "default_output") = .error e := by
  refine ⟨fun vs => ⟨?_, ?_⟩, modelStr_error ps⟩
  · induction ps generalizing vs with
    | nil => intro h; cases h; exact .nil
    | cons p ps ih =>
      intro h
      unfold modelStr at h
      cases hp : partStr p with
      | error e => rw [hp] at h; cases h
      | ok v =>
        rw [hp] at h
        cases hm : modelStr ps with
        | error e => rw [hm] at h; cases h
        | ok us =>
          rw [hm] at h
          have : v :: us = vs := by simpa [bind, Except.bind, pure, Except.pure] using h
          subst this
          exact .cons hp (ih us hm)
  · intro h
    obtain ⟨us, h1, h2⟩ := modelStr_lines ps (by
      clear * - h
      induction h with
      | nil => simp
      | cons h1 _ ih =>
        intro q hq
        rcases List.mem_cons.1 hq with rfl | hq
        · exact ⟨_, h1⟩
        · exact ih q hq)
    have : us = vs := by
      clear h1
      induction h2 generalizing vs with
      | nil => cases h; rfl
      | cons ha _ ih =>
        cases h with
        | cons hb hrest =>
          unfold Line at ha hb
          rw [ha] at hb
          simp only [Except.ok.injEq] at hb
          rw [hb, ih _ hrest]
    rw [h1, this]

/-- **C117.** `str` of a cluster with data and functions of the point succeeds and describes it. -/
theorem c117_cluster {val : Part K → K → K} (kind : Evaluator.Kind) {c : Cluster K} (h : PointwiseBy val (parts c)) (he : Even c) {s : Slice}
    (hs : c.slice = some s) (hp : ∀ p ∈ c.baseline.toList ++ c.model, Printable p) :
    ∃ t, clusterStr kind c = .ok t ∧ Describes val kind c (s.get c.r) (s.get c.y) (s.get c.err) t := by
  obtain ⟨a, h1, -, -, h4⟩ := c94_quality kind c h he hs false
  obtain ⟨vs, h5, h6⟩ := modelStr_lines c.model (fun p hm => hp p (List.mem_append_right _ hm))
  unfold clusterStr
  rw [h1]
  cases hb : c.baseline with
  | none =>
    refine ⟨⟨c.slice, a.stat, none, vs⟩, ?_, rfl, ?_, fun _ => rfl, ?_, h6⟩
    · simp only [bind, Except.bind, h5]; rfl
    · show a.stat = _
      rw [h4]; rfl
    · intro b h; rw [hb] at h; cases h
  | some b =>
    obtain ⟨w, hw⟩ := hp b (by rw [hb]; simp)
    have hw' : partStr b = .ok w := hw
    refine ⟨⟨c.slice, a.stat, some w, vs⟩, ?_, rfl, ?_, ?_, ?_, h6⟩
    · simp only [bind, Except.bind, h5, hw', Except.map]; rfl
    · show a.stat = _
      rw [h4]; rfl
    · intro h; rw [hb] at h; cases h
    · intro b' h
      rw [hb] at h
      simp only [Option.some.injEq] at h
      subst h
      exact ⟨w, rfl, hw⟩

/-- A result of a search. -/
theorem result_described {val : Part K → K → K} (kind : Evaluator.Kind) {D : Defaults K} {H : Heap K} {s t : PX K} {x y : List K} (hr : Ready s x y)
    (ht : defaultvars D s = (.ok (), t)) {depth : ℕ} {c : Cluster K} (hR : Result D H s t x y depth c)
    (hv : ∀ p ∈ c.baseline.toList ++ c.model, PointwiseBy val [p]) (hp : ∀ p ∈ c.baseline.toList ++ c.model, Printable p) :
    ∃ u x0 x1 e, x.head? = some x0 ∧ x.getLast? = some x1 ∧ t.effdy = .array e ∧ clusterStr kind c = .ok u ∧
      Describes val kind c (inRange x (rangeOf s x0 x1).1 (rangeOf s x0 x1).2 x) (inRange x (rangeOf s x0 x1).1 (rangeOf s x0 x1).2 y)
        (inRange x (rangeOf s x0 x1).1 (rangeOf s x0 x1).2 e) u := by
  obtain ⟨x0, x1, e, h0, h1, h2, h3, h4, h5⟩ := hR.data
  obtain ⟨sl, hsl, hget, -⟩ := hR.whole
  obtain ⟨dy, hdy, hdl⟩ := hr.hasdy
  have hel : e.length = x.length := (defaulted ht).eff x y dy hr.hasx hr.hasy hdy hdl hr.heff e h2
  have l1 := PdfExtract.inRange_length x (rangeOf s x0 x1).1 (rangeOf s x0 x1).2 y hr.leny
  have l2 := PdfExtract.inRange_length x (rangeOf s x0 x1).1 (rangeOf s x0 x1).2 e hel
  have he : Even c := ⟨by rw [h3, h4]; exact l1, by rw [h3, h5]; exact l2⟩
  have hy : sl.get c.y = c.y := get_same hget he.1
  have hee : sl.get c.err = c.err := get_same hget he.2
  obtain ⟨u, k1, k2⟩ := c117_cluster (val := val) kind (c := c) (fun p hp' => hv p hp' p (by simp)) he hsl hp
  rw [hget, hy, hee, h3, h4, h5] at k2
  exact ⟨u, x0, x1, e, h0, h1, h2, k1, k2⟩


/-- **C117.** The cluster that `extract_single` returns, printed: the data are those of the requested range. -/
theorem c117_extract {W : World K} {D : Defaults K} {H : Heap K} (hS : Sane W) (hE : Estimates W) (hN : H.peaks D.noPeaks = [])
    {val : Part K → K → K} (kind : Evaluator.Kind) {n depth : ℕ} {s : PX K} {c : Cluster K} {x y : List K} (hr : Ready s x y)
    (h : extractSingle W H D n depth s = .ok c) (hv : ∀ p ∈ c.baseline.toList ++ c.model, PointwiseBy val [p])
    (hp : ∀ p ∈ c.baseline.toList ++ c.model, Printable p) :
    ∃ t u x0 x1 e, defaultvars D s = (.ok (), t) ∧ x.head? = some x0 ∧ x.getLast? = some x1 ∧ t.effdy = .array e ∧ clusterStr kind c = .ok u ∧
      Describes val kind c (inRange x (rangeOf s x0 x1).1 (rangeOf s x0 x1).2 x) (inRange x (rangeOf s x0 x1).1 (rangeOf s x0 x1).2 y)
        (inRange x (rangeOf s x0 x1).1 (rangeOf s x0 x1).2 e) u := by
  obtain ⟨t, ht, hR⟩ := c68_whole_range hS hE hN hr h
  obtain ⟨u, x0, x1, e, h0⟩ := result_described kind hr ht hR hv hp
  exact ⟨t, u, x0, x1, e, ht, h0⟩

/-- **C117.** The same of the cluster that `fit_single` leaves. -/
theorem c117_fit_single {W : World K} {D : Defaults K} (hS : Sane W) {val : Part K → K → K} (kind : Evaluator.Kind) {o o' : Obj K} {x y : List K}
    (hr : Ready o.vars x y) (h : fitSingle W D o = (.ok (), o'))
    (hv : ∀ c, o'.extracted = some c → ∀ p ∈ c.baseline.toList ++ c.model, PointwiseBy val [p])
    (hp : ∀ c, o'.extracted = some c → ∀ p ∈ c.baseline.toList ++ c.model, Printable p) :
    ∃ c u x0 x1 e, o'.extracted = some c ∧ x.head? = some x0 ∧ x.getLast? = some x1 ∧ o'.vars.effdy = .array e ∧ clusterStr kind c = .ok u ∧
      Describes val kind c (inRange x (rangeOf o.vars x0 x1).1 (rangeOf o.vars x0 x1).2 x) (inRange x (rangeOf o.vars x0 x1).1 (rangeOf o.vars x0 x1).2 y)
        (inRange x (rangeOf o.vars x0 x1).1 (rangeOf o.vars x0 x1).2 e) u := by
  obtain ⟨t, c, ip, ht, hvt, hc, hR, -⟩ := (c72_fit_single hS hr h).2 rfl
  obtain ⟨u, x0, x1, e, h0⟩ := result_described kind hr ht hR (hv c hc) (hp c hc)
  rw [hvt]
  exact ⟨c, u, x0, x1, e, hc, h0⟩

/-- **C117.** `str` of an extraction: the initial peaks line by line, the parameters of the baseline, and the text of the extracted cluster or that
there is none; it changes nothing.  It raises what the first of the three raises. -/
theorem c117_extraction (kind : ℕ → Evaluator.Kind) (o : Obj K) :
    (∀ t, extractionStr kind o = .ok t ↔
      (match o.vars.initialPeaks with
        | none => t.initialPeaks = none
        | some i => ∃ vs, t.initialPeaks = some vs ∧ List.Forall₂ Line (o.heap.peaks i) vs) ∧
      (match o.vars.baseline with
        | some (.inst i) => ∃ v, t.baseline = some v ∧ Line (o.heap.base i) v
        | _ => t.baseline = none) ∧
      (match o.extracted with
        | none => t.extracted = none
        | some c => ∃ u, t.extracted = some u ∧ clusterStr (kind c.method) c = .ok u)) ∧
    ∀ i e, o.vars.initialPeaks = some i → modelStr (o.heap.peaks i) = .error e → extractionStr kind o = .error e := by
  refine ⟨fun t => ?_, fun i e hi he => ?_⟩
  · obtain ⟨t1, t2, t3⟩ := t
    have k1 : initialStr o = .ok t1 ↔ (match o.vars.initialPeaks with
        | none => t1 = none
        | some i => ∃ vs, t1 = some vs ∧ List.Forall₂ Line (o.heap.peaks i) vs) := by
      unfold initialStr
      cases o.vars.initialPeaks with
      | none => simp [eq_comm]
      | some i =>
        simp only [← (c117_model (o.heap.peaks i)).1]
        cases modelStr (o.heap.peaks i) with
        | error e => simp [Except.map]
        | ok v => simp [Except.map, eq_comm]
    have k2 : baselineStr o = .ok t2 ↔ (match o.vars.baseline with
        | some (.inst i) => ∃ v, t2 = some v ∧ Line (o.heap.base i) v
        | _ => t2 = none) := by
      unfold Line baselineStr
      cases o.vars.baseline with
      | none => simp [eq_comm]
      | some b =>
        cases b with
        | inst i =>
          show (partStr (o.heap.base i)).map some = .ok t2 ↔ ∃ v, t2 = some v ∧ partStr (o.heap.base i) = .ok v
          cases partStr (o.heap.base i) with
          | error e => simp [Except.map]
          | ok v => simp [Except.map, eq_comm]
        | _ => simp [eq_comm]
    have k3 : extractedStr kind o = .ok t3 ↔ (match o.extracted with
        | none => t3 = none
        | some c => ∃ u, t3 = some u ∧ clusterStr (kind c.method) c = .ok u) := by
      unfold extractedStr
      cases o.extracted with
      | none => simp [eq_comm]
      | some c =>
        show (clusterStr (kind c.method) c).map some = .ok t3 ↔ ∃ u, t3 = some u ∧ clusterStr (kind c.method) c = .ok u
        cases clusterStr (kind c.method) c with
        | error e => simp [Except.map]
        | ok v => simp [Except.map, eq_comm]
    show _ ↔ _
    rw [show (ExtractionText.mk t1 t2 t3).initialPeaks = t1 from rfl, show (ExtractionText.mk t1 t2 t3).baseline = t2 from rfl,
      show (ExtractionText.mk t1 t2 t3).extracted = t3 from rfl, ← k1, ← k2, ← k3]
    unfold extractionStr
    cases initialStr o with
    | error e => simp [bind, Except.bind]
    | ok a1 =>
      cases baselineStr o with
      | error e => simp [bind, Except.bind]
      | ok a2 =>
        cases extractedStr kind o with
        | error e => simp [bind, Except.bind]
        | ok a3 => simp [bind, Except.bind, pure, Except.pure]
  · unfold extractionStr initialStr
    rw [hi]
    simp only [he]
    rfl

/-! ### The functions of the package -/

section package

open Verif.Parts.Package Verif.Parts.Convert

variable {nan : ℝ} {T : Table} {N : Numerics ℝ}

theorem resolved_default_output : Function.resolveOut formats (some "default_output") = "pwa" := by decide

theorem function_text (nan : ℝ) (f : ℕ) (s : Peaks.Shape × ℝ) (v : List ℝ) :
    (function nan f s).transform v (some "internal") (some "default_output") = (function nan f s).transform v (some "internal") (some "pwa") := by
  rw [function_transform]
  unfold Function.transformParameters
  simp only [resolved_default_output, resolved_pwa, resolved_in]

/-- **C117.** The line of a peak of the package is its position, full width at half maximum and area. -/
theorem c117_line {p : Part ℝ} {f : ℕ} (ho : p.owner.transform = (function nan f (T f)).transform) {x w a : ℝ} (h : Reported (T f).2 p x w a) :
    Line p [x, w, a] := by
  have := h.pwa
  rw [ho] at this
  unfold Line
  rw [ho, function_text]
  exact this

/-- The line is position, width and area of the peak. -/
def Shows (T : Table) (p : Part ℝ) (v : List ℝ) : Prop := ∃ f x w a, v = [x, w, a] ∧ Reported (T f).2 p x w a

theorem shows_lines {ps : List (Part ℝ)}
    (h : ∀ p ∈ ps, ∃ f x w a, p.owner.transform = (function nan f (T f)).transform ∧ Reported (T f).2 p x w a) :
    ∃ vs, modelStr ps = .ok vs ∧ List.Forall₂ (Shows T) ps vs := by
  induction ps with
  | nil => exact ⟨[], rfl, .nil⟩
  | cons p ps ih =>
    obtain ⟨vs, h1, h2⟩ := ih (fun q hq => h q (List.mem_cons_of_mem _ hq))
    obtain ⟨f, x, w, a, hf, hr⟩ := h p (List.mem_cons_self)
    have hl : partStr p = .ok [x, w, a] := c117_line (nan := nan) (f := f) hf hr
    refine ⟨[x, w, a] :: vs, ?_, .cons ⟨f, x, w, a, rfl, hr⟩ h2⟩
    unfold modelStr
    rw [hl, h1]
    rfl

/-- **C117.** Whatever peaks the search returns can be printed, and what is printed of each is its position, width and area: the width is at most the
limit of its function. -/
theorem c117_peaks (hT : ∀ f, 0 < (T f).2) (hA : SortsKeys N.as) (hP : PicksOne N.pick) {H : Heap ℝ} {D : Defaults ℝ}
    (hN : H.peaks D.noPeaks = []) (hm : ∀ i, ∀ p ∈ H.peaks i, PackagePeak nan T p)
    {n depth : ℕ} {s : PX ℝ} {c : Cluster ℝ} {x y : List ℝ} (hr : Ready s x y) (h : extractSingle (codeWorld (packaged nan T N)) H D n depth s = .ok c) :
    ∃ vs, modelStr c.model = .ok vs ∧ List.Forall₂ (Shows T) c.model vs := by
  have hS := packaged_sorting (N := N) nan T hA hP
  obtain ⟨t, pf, ip, -, -, -, rfl, hpr, -⟩ := c69_provenance (c95_sane _ hS) (c95_estimates _).1 hN hr h
  apply shows_lines (nan := nan)
  intro p hp
  rcases hpr p hp with hn | ⟨q, hq, hs⟩
  · obtain ⟨f, -, hf, x, w, a, hrep⟩ := reported_new (N := N) hT hn
    exact ⟨f, x, w, a, by rw [hf], hrep⟩
  · exact reported_same hT hs (hm _ q hq)

/-- **C117.** The same of the peaks that `fit_single` leaves. -/
theorem c117_fitted_peaks (hT : ∀ f, 0 < (T f).2) (hA : SortsKeys N.as) (hP : PicksOne N.pick) {D : Defaults ℝ} {o o' : Obj ℝ}
    (hm : ∀ i, ∀ p ∈ o.heap.peaks i, PackagePeak nan T p) {x y : List ℝ} (hr : Ready o.vars x y)
    (h : fitSingle (codeWorld (packaged nan T N)) D o = (.ok (), o')) :
    ∃ c vs, o'.extracted = some c ∧ modelStr c.model = .ok vs ∧ List.Forall₂ (Shows T) c.model vs := by
  have hS := packaged_sorting (N := N) nan T hA hP
  obtain ⟨t, c, ip, -, -, h3, -, -, h6, -⟩ := (c72_fit_single (c95_sane _ hS) hr h).2 rfl
  obtain ⟨vs, h1, h2⟩ := shows_lines (nan := nan) (T := T) (ps := c.model) (fun p hp => by
    have : key p ∈ (o.heap.peaks ip).map key := h6.subset (List.mem_map.2 ⟨p, hp, rfl⟩)
    obtain ⟨q, hq, e⟩ := List.mem_map.1 this
    exact reported_same hT ((samePeak_iff _ _).2 e.symm) (hm _ q hq))
  exact ⟨c, vs, h3, h1, h2⟩

/-- **C117.** Finding.  The text is made of internal parameters: after `transform(in_format="internal", out_format="pwa")` (C115) the position and
the area printed are the same, but the width printed is the one that internal parameter `w` stands for, not `w`. -/
theorem c117_converted (hT : ∀ f, 0 < (T f).2) {f : ℕ} {p q : Part ℝ} (ho : p.owner = function nan f (T f)) (h : AsRead (nan := nan) T p q)
    {x w a : ℝ} (hr : Reported (T f).2 p x w a) : Line p [x, w, a] ∧ Line q [x, Peaks.fwhmOf (T f).2 w, a] := by
  have hq := (c115_misread hT ho h hr).1
  exact ⟨c117_line (nan := nan) (f := f) (by rw [ho]) hr, c117_line (nan := nan) (f := f) (by rw [h.owner, ho]) hq⟩

end package

/-! ### Instances -/

section instances

open Verif.Parts.Package Verif.Parts.Convert

theorem spotted_text {p : Part ℚ} (h : p.owner = spotOwner 7 ∨ p.owner = (zeroHeap.base 0).owner) : Printable p := by
  unfold Printable
  rcases h with h | h <;> rw [h] <;> exact ⟨_, rfl⟩

/-- The variables of a search in the range from 1 to 7/2. -/
def textVars : PX ℚ := dotVars none (some (some 1, some (7/2)))

/-- The hypotheses of `c117_extract` hold of every result of this search. -/
example {c : Cluster ℚ} (h : extractSingle (codeWorld (spots .aic)) zeroHeap dotDef 3 1 textVars = .ok c) :=
  have key : ∀ p ∈ c.baseline.toList ++ c.model, p.owner = spotOwner 7 ∨ p.owner = (zeroHeap.base 0).owner := by
    obtain ⟨t, -, hR⟩ := c68_whole_range (c95_sane _ (spots_sorting _)) (c95_estimates _).1 rfl (dotVars_ready _ _) h
    obtain ⟨t', pf, ip, -, -, -, rfl, hp, -⟩ := c69_provenance (c95_sane _ (spots_sorting _)) (c95_estimates _).1 rfl (dotVars_ready _ _) h
    obtain ⟨bl, b, -, hb, hsame, -⟩ := hR.base
    rw [hb]
    intro p hm
    rcases List.mem_append.1 hm with hm | hm
    · simp only [Option.toList_some, List.mem_singleton] at hm
      subst hm
      exact .inr hsame.1
    · rcases hp p hm with ⟨⟨f, hf, ho⟩, -⟩ | ⟨q, hq, -⟩
      · have : f = 7 := by simpa [zeroHeap] using hf
        subst this
        exact .inl ho
      · exact absurd hq (by simp [zeroHeap, dotDef, textVars, dotVars])
  c117_extract (c95_sane _ (spots_sorting _)) (c95_estimates _).1 (D := dotDef) (H := zeroHeap) rfl (val := spotVal) (.aic) (dotVars_ready _ _) h
    (fun p hm => (key p hm).elim spotted_pointwise zero_pointwise) (fun p hm => spotted_text (key p hm))

example : ((extractSingle (codeWorld (spots .aic)) zeroHeap dotDef 3 1 textVars).bind (clusterStr .aic)).toOption.map (fun t => (t.baseline, t.peaks)) =
    some (some [], [[1, 3], [2, 5]]) := by
  decide +kernel

/-- The same for `c117_fit_single`, with one initial peak. -/
example {o' : Obj ℚ} (h : fitSingle (codeWorld (spots .aic)) dotDef ⟨dotVars (some 1) none, zeroHeap, none⟩ = (.ok (), o')) :=
  have key : ∀ c, o'.extracted = some c → ∀ p ∈ c.baseline.toList ++ c.model, p.owner = spotOwner 7 ∨ p.owner = (zeroHeap.base 0).owner := by
    obtain ⟨t, c, ip, ht, -, hc, hR, hip, hsub, -⟩ := (c72_fit_single (c95_sane _ (spots_sorting _)) (dotVars_ready _ _) h).2 rfl
    obtain ⟨bl, b, -, hb, hsame, -⟩ := hR.base
    intro c' hc' p hm
    rw [hc] at hc'
    simp only [Option.some.injEq] at hc'
    subst hc'
    rw [hb] at hm
    rcases List.mem_append.1 hm with hm | hm
    · simp only [Option.toList_some, List.mem_singleton] at hm
      subst hm
      exact .inr hsame.1
    · obtain ⟨q, hq, hk⟩ := List.mem_map.1 (hsub.subset (List.mem_map_of_mem hm))
      have hid := (defaulted ht).ip
      rw [hip] at hid
      simp only [dotVars, Option.getD_some, Option.some.injEq] at hid
      subst hid
      simp only [zeroHeap, if_true, List.mem_singleton] at hq
      subst hq
      exact .inl ((samePeak_iff _ _).2 hk.symm).1
  c117_fit_single (c95_sane _ (spots_sorting _)) (D := dotDef) (val := spotVal) .aic (dotVars_ready _ _) h
    (fun c hc p hm => (key c hc p hm).elim spotted_pointwise zero_pointwise) (fun c hc p hm => spotted_text (key c hc p hm))

/-- An extraction with one initial peak, printed before and after the fit. -/
example : (extractionStr (fun _ => .aic) (⟨dotVars (some 1) none, zeroHeap, none⟩ : Obj ℚ)).toOption.map
      (fun t => (t.initialPeaks, t.baseline, t.extracted.map (fun u => u.peaks))) = some (some [[2, 5]], none, none) ∧
    (extractionStr (fun _ => .aic) (fitSingle (codeWorld (spots .aic)) dotDef ⟨dotVars (some 1) none, zeroHeap, none⟩).2).toOption.map
      (fun t => (t.initialPeaks, t.baseline, t.extracted.map (fun u => u.peaks))) = some (some [[2, 5]], some [], some [[2, 5]]) := by
  constructor <;> decide +kernel

example {c : Cluster ℝ} (h : extractSingle (codeWorld (packaged 0 exTable exNumerics)) exHeap exDefs 3 1 exVars = .ok c) :=
  c117_peaks exTable_pos mergeAs_sorts ex_picks rfl exHeap_peaks exVars_ready h

example {o' : Obj ℝ} (h : fitSingle (codeWorld (packaged 0 exTable exNumerics)) exDefs ⟨exVars, exHeap, none⟩ = (.ok (), o')) :=
  c117_fitted_peaks exTable_pos mergeAs_sorts ex_picks (o := ⟨exVars, exHeap, none⟩) exHeap_peaks exVars_ready h

/-- Printed as 3, √2, 4; after the conversion, with another width. -/
example : ∃ q, transform ([exPeak] ++ [base]) (some "internal") (some "pwa") = (.ok (), [q] ++ [base]) ∧ Line exPeak [3, Real.sqrt 2, 4] ∧
    Line q [3, Peaks.fwhmOf 2 (Real.sqrt 2), 4] ∧ Peaks.fwhmOf 2 (Real.sqrt 2) ≠ Real.sqrt 2 := by
  have e : Peaks.fwhmOf (exTable 5).2 0 = Real.sqrt 2 := by
    show Real.sqrt (0.5 * (Real.sin 0 + 1) * 2 ^ 2) = _
    rw [Real.sin_zero]
    congr 1
    norm_num
  obtain ⟨t1, t2⟩ := transform_pwa 0 5 (exTable 5) 3 0 (-4)
  have e4 : |(-4 : ℝ)| = 4 := by norm_num
  rw [e, e4] at t1 t2
  have hr : Reported (exTable 5).2 exPeak 3 (Real.sqrt 2) 4 := by
    refine ⟨t1, t2, get_position (p := exPeak) rfl rfl, ⟨Real.sqrt_nonneg _, ?_⟩, by norm_num⟩
    show Real.sqrt 2 ≤ 2
    rw [Real.sqrt_le_left (by norm_num)]
    norm_num
  obtain ⟨qs, h1, h2⟩ := c115_to_pwa (nan := 0) (T := exTable) exTable_pos ours base_only
  cases h2 with
  | cons hq hn =>
    cases hn
    refine ⟨_, h1, (c117_converted exTable_pos (f := 5) rfl hq hr).1, (c117_converted exTable_pos (f := 5) rfl hq hr).2, ne_of_gt ?_⟩
    show Real.sqrt 2 < Real.sqrt (0.5 * (Real.sin (Real.sqrt 2) + 1) * 2 ^ 2)
    have hpos : 0 < Real.sin (Real.sqrt 2) := by
      apply Real.sin_pos_of_pos_of_lt_pi (Real.sqrt_pos.2 (by norm_num))
      have : Real.sqrt 2 ≤ 2 := by
        rw [Real.sqrt_le_left (by norm_num)]
        norm_num
      linarith [Real.pi_gt_three]
    apply Real.sqrt_lt_sqrt (by norm_num)
    nlinarith

end instances

end Verif.Parts.Print
