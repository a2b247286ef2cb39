import Verif.Extract.PlotModel
import Verif.Extract.CodeExample
import Verif.Extract.Fitting
import Verif.PdfExtract.Main
import Verif.ModelCluster.ValueExample

/-!
# Property C110: what `PeakExtraction.plot` draws

## Specification
-/

set_option linter.unusedSectionVars false

namespace Verif.Parts.Extract

open Verif.Py Verif.PeakList Verif.Extraction Verif.Parts.ModelCluster

section

variable {K : Type} [Field K] [LinearOrder K] [IsStrictOrderedRing K]

/-- The data, and one curve for each peak: the baseline plus that peak alone. -/
def apart (val : Part K → K → K) (x y : List K) (base : Part K) (peaks : List (Part K)) : List (List K) :=
  x :: y :: peaks.flatMap (fun p => [x, x.map (fun v => val base v + val p v)])

/-- The data, and one curve: the baseline plus all peaks. -/
def together (val : Part K → K → K) (x y : List K) (base : Part K) (peaks : List (Part K)) : List (List K) :=
  [x, y, x, x.map (fun v => val base v + (peaks.map (fun p => val p v)).sum)]

/-- The values of the functions are functions of the point alone. -/
abbrev Pointwise (val : Part K → K → K) (ps : List (Part K)) : Prop := PointwiseBy val ps

/-! ## Lemmas -/

variable {W : World K} {H : Heap K} {D : Defaults K}

theorem plottable_spec {val : Part K → K → K} {c : Cluster K} {b : Part K} (hb : c.baseline = some b) (h : PointwiseBy val (b :: c.model))
    {sl : Slice} (hs : c.slice = some sl) (hx : sl.get c.r = c.r) (hy : sl.get c.y = c.y) :
    plottable c true = .ok (together val c.r c.y b c.model) ∧ plottable c false = .ok (apart val c.r c.y b c.model) := by
  obtain ⟨h1, h2⟩ := c94_plottable (val := val) c (by unfold parts; rw [hb]; exact h) hs
  rw [hx, hy] at h1 h2
  rw [h1, h2, hb]
  unfold together apart
  refine ⟨?_, ?_⟩
  · congr 2
    simp [curve, parts, hb]
  · simp [curve]

theorem get_same {α β : Type} {sl : Slice} {l : List α} {m : List β} (h : sl.get l = l) (hl : m.length = l.length) : sl.get m = m := by
  unfold Slice.get getSlice bounds at h ⊢
  simp only [hl] at h ⊢
  have h1 := congrArg List.length h
  simp only [List.length_take, List.length_drop] at h1
  by_cases h0 : l.length = 0
  · have : m = [] := List.eq_nil_of_length_eq_zero (by omega)
    subst this
    simp
  · have e1 : min (sl.start.getD 0) l.length = 0 := by omega
    rw [e1]
    rw [e1] at h1
    simp only [List.drop_zero]
    apply List.take_of_length_le
    omega

theorem settles {s t : PX K} (h : defaultvars D s = (.ok (), t)) : ∃ c f bl, t.cres = some c ∧ t.pf = some f ∧ t.baseline = some (.inst bl) := by
  unfold defaultvars at h
  obtain ⟨t5, h, h6⟩ := andThen_ok h
  obtain ⟨t4, h, h5⟩ := andThen_ok h
  obtain ⟨t3, h, h4⟩ := andThen_ok h
  obtain ⟨t2, h, h3⟩ := andThen_ok h
  obtain ⟨t1, h1, h2⟩ := andThen_ok h
  obtain ⟨c, rfl, -⟩ := defCres_frame h1
  obtain ⟨e, rfl, -⟩ := defEffdy_frame h2
  obtain ⟨f, rfl, -⟩ := defPf_frame h3
  obtain ⟨g, rfl, -⟩ := defRng_frame h4
  simp only [Prod.mk.injEq, true_and] at h6
  have hb : ∃ bl, t5 = { ({ s with cres := some c, effdy := e, pf := some f, rng := g } : PX K) with baseline := some (.inst bl) } := by
    unfold defBaseline at h5
    split at h5
    · rename_i i hi
      simp only [Prod.mk.injEq, true_and] at h5
      exact ⟨i, by rw [← h5, ← hi]⟩
    · simp only [Prod.mk.injEq, true_and] at h5
      exact ⟨_, h5.symm⟩
    · split at h5
      · simp at h5
      · split at h5 <;> simp only [Prod.mk.injEq, true_and, reduceCtorEq, false_and] at h5 <;> exact ⟨_, h5.symm⟩
  obtain ⟨bl, rfl⟩ := hb
  subst h6
  exact ⟨c, f, bl, rfl, rfl, rfl⟩

/-! ## Theorems -/

/-- What is drawn of a result. -/
theorem plot_result {α : Type} {val : Part K → K → K} (kwds : List (String × α)) {o : Obj K} {c : Cluster K} (hc : o.extracted = some c)
    {s t : PX K} {x y : List K} (hy : y.length = x.length) {depth : ℕ} (hR : Result D H s t x y depth c) (hv : ∀ p ∈ c.baseline.toList ++ c.model, PointwiseBy val [p]) :
    ∃ x0 x1 b, x.head? = some x0 ∧ x.getLast? = some x1 ∧ c.baseline = some b ∧
      plot W D kwds o = (.ok ((if kwds = [] then apart else together) val (inRange x (rangeOf s x0 x1).1 (rangeOf s x0 x1).2 x)
        (inRange x (rangeOf s x0 x1).1 (rangeOf s x0 x1).2 y) b c.model), o) := by
  obtain ⟨x0, x1, e, h0, h1, -, hr, hyy, -⟩ := hR.data
  obtain ⟨sl, hsl, hget, -⟩ := hR.whole
  obtain ⟨bl, b, -, hb, -⟩ := hR.base
  refine ⟨x0, x1, b, h0, h1, hb, ?_⟩
  have hp : PointwiseBy val (b :: c.model) := fun p hp => hv p (by rw [hb]; exact hp) p (by simp)
  have hgy : sl.get c.y = c.y := get_same hget (by
    rw [hr, hyy]
    exact PdfExtract.inRange_length x _ _ y hy)
  obtain ⟨q1, q2⟩ := plottable_spec hb hp hsl hget hgy
  unfold plot
  rw [hc]
  simp only
  rw [← hr, ← hyy]
  cases kwds with
  | nil => simp [q2]
  | cons k ks => simp [q1]

/-- **C110.** After a successful `extract_single`, `plot()` draws the data of the range and, for each peak found, baseline plus peak; with any keywords,
the sum.  The object is not changed. -/
theorem c110_extracted {α : Type} (hS : Sane W) (hE : Estimates W) {o : Obj K} (hN : o.heap.peaks D.noPeaks = []) {val : Part K → K → K}
    (kwds : List (String × α)) {s : PX K} {c : Cluster K} {x y : List K} (hr : Ready s x y) (hx : extractSingle W o.heap D 3 1 s = .ok c)
    (hc : o.extracted = some c) (hv : ∀ p ∈ c.baseline.toList ++ c.model, PointwiseBy val [p]) :
    ∃ x0 x1 b, x.head? = some x0 ∧ x.getLast? = some x1 ∧ c.baseline = some b ∧
      plot W D kwds o = (.ok ((if kwds = [] then apart else together) val (inRange x (rangeOf s x0 x1).1 (rangeOf s x0 x1).2 x)
        (inRange x (rangeOf s x0 x1).1 (rangeOf s x0 x1).2 y) b c.model), o) := by
  obtain ⟨t, -, hR⟩ := c68_whole_range hS hE hN hr hx
  exact plot_result kwds hc hr.leny hR hv

/-- **C110.** Likewise after `fit_single`. -/
theorem c110_fitted {α : Type} (hS : Sane W) {o o' : Obj K} {val : Part K → K → K} (kwds : List (String × α)) {x y : List K} (hr : Ready o.vars x y)
    (hf : fitSingle W D o = (.ok (), o')) (hv : ∀ c, o'.extracted = some c → ∀ p ∈ c.baseline.toList ++ c.model, PointwiseBy val [p]) :
    ∃ c x0 x1 b, o'.extracted = some c ∧ x.head? = some x0 ∧ x.getLast? = some x1 ∧ c.baseline = some b ∧
      plot W D kwds o' = (.ok ((if kwds = [] then apart else together) val (inRange x (rangeOf o.vars x0 x1).1 (rangeOf o.vars x0 x1).2 x)
        (inRange x (rangeOf o.vars x0 x1).1 (rangeOf o.vars x0 x1).2 y) b c.model), o') := by
  obtain ⟨t, c, ip, -, -, hc, hR, -⟩ := (c72_fit_single hS hr hf).2 rfl
  obtain ⟨x0, x1, b, h⟩ := plot_result (W := W) kwds hc hr.leny hR (hv c hc)
  exact ⟨c, x0, x1, b, hc, h⟩

/-- **C110.** Without extracted peaks: `defaultvars`, then the data of the range with the initial peaks, each on the baseline (with any keywords: their
sum).  Nothing is changed but the variables that were not set; an exception comes from `defaultvars` or from a range without data. -/
theorem c110_initial {α : Type} {val : Part K → K → K} (kwds : List (String × α)) {o : Obj K} (hc : o.extracted = none) {x y : List K}
    (hr : Ready o.vars x y) {x0 x1 : K} (g0 : x.head? = some x0) (g1 : x.getLast? = some x1) (hne : inRange x (rangeOf o.vars x0 x1).1 (rangeOf o.vars x0 x1).2 x ≠ [])
    (hv : ∀ i, PointwiseBy val [o.heap.base i]) (hvp : ∀ i, PointwiseBy val (o.heap.peaks i)) :
    (∀ e t, defaultvars D o.vars = (.error e, t) → plot W D kwds o = (.error e, { o with vars := t })) ∧
    (∀ t, defaultvars D o.vars = (.ok (), t) → ∃ bl, t.baseline = some (.inst bl) ∧
      plot W D kwds o = (.ok ((if kwds = [] then apart else together) val (inRange x (rangeOf o.vars x0 x1).1 (rangeOf o.vars x0 x1).2 x)
        (inRange x (rangeOf o.vars x0 x1).1 (rangeOf o.vars x0 x1).2 y) (o.heap.base bl) (o.heap.peaks (o.vars.initialPeaks.getD D.noPeaks))), { o with vars := t })) := by
  refine ⟨fun e t h => by unfold plot; rw [hc]; simp only [h], fun t h => ?_⟩
  have hd := defaulted h
  obtain ⟨cr, f, bl, h1, h2, h3⟩ := settles h
  refine ⟨bl, h3, ?_⟩
  obtain ⟨dy, hdy, hdl⟩ := hr.hasdy
  generalize hab : rangeOf o.vars x0 x1 = ab at hne ⊢
  obtain ⟨a, b⟩ := ab
  simp only at hne ⊢
  have hrange : a ≤ x1 ∧ x0 ≤ b := by
    obtain ⟨v, hv⟩ := List.exists_mem_of_ne_nil _ hne
    obtain ⟨m1, m2, m3⟩ := PdfExtract.mem_inRange hv
    obtain ⟨m4, m5⟩ := PdfExtract.ends_le hr.inc g0 g1 m1
    exact ⟨le_trans m2 m5, le_trans m4 m3⟩
  obtain ⟨lo, hi, e1, -, -, hiff⟩ := (c40_range_slice x (hr.inc.imp le_of_lt) a b x0 x1 g0 g1).1 hrange
  have hrng := hd.rng x x0 x1 hr.hasx g0 g1
  rw [hab] at hrng
  unfold plot initialCluster
  rw [hc]
  simp only [h, hd.x, hd.y, hd.dy, hr.hasx, hr.hasy, hdy, hrng, h1, h2, h3, hd.ip, hd.em, e1, Int.toNat_natCast]
  rw [getSlice_inRange hiff rfl, getSlice_inRange hiff hr.leny, getSlice_inRange hiff hdl]
  have hlen : ∀ l : List K, l.length = x.length → (inRange x a b l).length = (inRange x a b x).length := fun l hl => PdfExtract.inRange_length x a b l hl
  cases hcl : newCluster W ⟨inRange x a b x, inRange x a b y, inRange x a b dy, o.heap.base bl, [], cr, o.vars.errorMethod.getD D.aic, o.heap.funcs f⟩
      (o.heap.peaks (o.vars.initialPeaks.getD D.noPeaks)) (some (o.heap.base bl)) (inRange x a b x) (inRange x a b y) (inRange x a b dy) none with
  | error e =>
    exfalso
    unfold newCluster changeSlice updateNever maxNeg at hcl
    simp only [Option.getD_none] at hcl
    rw [if_neg] at hcl
    · simp at hcl
    · intro h0
      apply hne
      have hl : ∀ ex : List K, ex.length = (inRange x a b x).length → (Slice.get ⟨none, (inRange x a b x).length⟩ ex) = ex := by
        intro ex hex
        rw [← hex]
        exact PdfExtract.get_whole ex
      have he : ∀ ex : List K, ex.length = (inRange x a b x).length → (Slice.get ⟨none, (inRange x a b x).length⟩ ex) = [] → inRange x a b x = [] := by
        intro ex hex h1
        rw [hl ex hex] at h1
        rw [h1] at hex
        exact List.eq_nil_of_length_eq_zero hex.symm
      refine he _ ?_ h0
      unfold excess
      simp only [List.length_zipWith, List.length_zip, hlen y hr.leny, hlen dy hdl, min_self]
  | ok c =>
    obtain ⟨hof, hsl, hm, -⟩ := newCluster_of (Q := fun _ => True) (fun _ _ => trivial) hcl
    simp only
    have hget : (Slice.get ⟨none, (inRange x a b x).length⟩ c.r) = c.r := by rw [hof.r]; exact PdfExtract.get_whole _
    have hgy := get_same hget (m := c.y) (by rw [hof.r, hof.y]; exact hlen y hr.leny)
    obtain ⟨q1, q2⟩ := plottable_spec (val := val) (c := c) (b := o.heap.base bl) hof.bl (by
      rw [hm]
      intro p hp
      rcases List.mem_cons.1 hp with rfl | hp
      · exact hv bl _ (by simp)
      · exact hvp _ p hp) hsl hget hgy
    rw [hm, hof.r, hof.y] at q1 q2
    cases kwds with
    | nil => simp [q2]
    | cons k ks => simp [q1]

/-- **Finding.** `plot(joined=False)` draws the sum, whatever value is given: the dictionary of keywords is taken for the flag. -/
theorem c110_joined {α : Type} (v : α) (o : Obj K) : plot W D [("joined", v)] o = plot W D [("joined", true)] o ∧
    (∀ c, o.extracted = some c → plot W D [("joined", v)] o = (plottable c true, o)) := by
  refine ⟨rfl, ?_⟩
  intro c hc
  unfold plot
  rw [hc]
  rfl

end

/-! ## Instances -/

/-- Two initial peaks on a baseline, range [1, 4]. -/
def drawnHeap : Heap ℚ := { base := fun _ => level 1, funcs := fun _ => [2], peaks := fun i => if i = 5 then [bump 2 4 false, bump 4 6 true] else [] }

def drawnObj : Obj ℚ := ⟨dotVars (some 5) (some (some 1, some 4)), drawnHeap, none⟩

theorem drawn_ready : Ready drawnObj.vars [0, 1, 2, 3, 4, 5, 6] [0, 3, 5, 0, 2, 0, 1] :=
  ⟨rfl, rfl, ⟨_, rfl, rfl⟩, by intro e h; simp [drawnObj, dotVars] at h, by decide +kernel, rfl⟩

example (kwds : List (String × Bool)) := c110_initial (W := dotWorld) (D := dotDef) (val := fun p x => bumpAt p.pars x) kwds (o := drawnObj) rfl drawn_ready rfl rfl
  (by decide +kernel)
  (fun i p hp l => by simp only [List.mem_singleton] at hp; subst hp; rfl)
  (fun i => by
    apply bump_pointwise
    intro p hp
    simp only [drawnObj, drawnHeap] at hp
    split at hp
    · simp only [List.mem_cons, List.not_mem_nil, or_false] at hp
      rcases hp with rfl | rfl <;> exact ⟨_, rfl⟩
    · simp at hp)

example : (plot dotWorld dotDef ([] : List (String × Bool)) drawnObj).1.toOption =
      some [[1, 2, 3, 4], [3, 5, 0, 2], [1, 2, 3, 4], [5, 5, 5, 1], [1, 2, 3, 4], [1, 1, 7, 7]] ∧
    (plot dotWorld dotDef [("joined", false)] drawnObj).1.toOption =
      some [[1, 2, 3, 4], [3, 5, 0, 2], [1, 2, 3, 4], [5, 5, 11, 7]] := by
  constructor <;> decide +kernel

/-- A baseline that is zero. -/
def zeroHeap : Heap ℚ := { base := fun _ => ⟨⟨0, 0, [], fun _ l => l.map (fun _ => 0), fun _ _ _ => [], fun p _ _ => .ok p⟩, [], [], false, true, false⟩, peaks := fun i => if i = 1 then [⟨spotOwner 7, [2, 5], [true, true], true, false, false⟩] else [], funcs := fun _ => [7] }

theorem zero_pointwise {p : Part ℚ} (h : p.owner = (zeroHeap.base 0).owner) : PointwiseBy spotVal [p] := by
  intro q hq l
  rw [List.mem_singleton.1 hq]
  unfold spotVal
  rw [h]
  rfl

theorem spotted_pointwise {p : Part ℚ} (h : p.owner = spotOwner 7) : PointwiseBy spotVal [p] := by
  intro q hq l
  rw [List.mem_singleton.1 hq]
  unfold spotVal
  rw [h]
  rfl

/-- The hypotheses of `c110_extracted` hold of every result of this search, and there is one, with two peaks. -/
example (kwds : List (String × Bool)) {c : Cluster ℚ} (h : extractSingle (codeWorld (spots .aic)) zeroHeap dotDef 3 1 (dotVars none (some (some 1, some (7/2)))) = .ok c) :=
  c110_extracted (c95_sane _ (spots_sorting _)) (c95_estimates _).1 (D := dotDef) (o := ⟨dotVars none (some (some 1, some (7/2))), zeroHeap, some c⟩) rfl
    (val := spotVal) kwds (dotVars_ready _ _) h rfl (by
      obtain ⟨t, -, hR⟩ := c68_whole_range (c95_sane _ (spots_sorting _)) (c95_estimates _).1 rfl (dotVars_ready _ _) h
      obtain ⟨t', pf, ip, -, -, -, rfl, hp, -⟩ := c69_provenance (c95_sane _ (spots_sorting _)) (c95_estimates _).1 rfl (dotVars_ready _ _) h
      obtain ⟨bl, b, -, hb, hsame, -⟩ := hR.base
      rw [hb]
      intro p hm
      rcases List.mem_append.1 hm with hm | hm
      · simp only [Option.toList_some, List.mem_singleton] at hm
        subst hm
        exact zero_pointwise hsame.1
      · rcases hp p hm with ⟨⟨f, hf, ho⟩, -⟩ | ⟨q, hq, -⟩
        · have : f = 7 := by simpa [zeroHeap] using hf
          subst this
          exact spotted_pointwise ho
        · exact absurd hq (by simp [zeroHeap, dotVars, dotDef]))

example : shown (extractSingle (codeWorld (spots .aic)) zeroHeap dotDef 3 1 (dotVars none (some (some 1, some (7/2))))) = some [(7, [1, 3]), (7, [2, 5])] := by
  decide +kernel

/-- The same for `c110_fitted`, with one initial peak. -/
example (kwds : List (String × Bool)) {o' : Obj ℚ} (h : fitSingle (codeWorld (spots .aic)) dotDef ⟨dotVars (some 1) none, zeroHeap, none⟩ = (.ok (), o')) :=
  c110_fitted (c95_sane _ (spots_sorting _)) (D := dotDef) (val := spotVal) kwds (dotVars_ready _ _) h (by
      obtain ⟨t, c, ip, ht, -, hc, hR, hip, hsub, -⟩ := (c72_fit_single (c95_sane _ (spots_sorting _)) (dotVars_ready _ _) h).2 rfl
      obtain ⟨bl, b, -, hb, hsame, -⟩ := hR.base
      intro c' hc' p hm
      rw [hc] at hc'
      simp only [Option.some.injEq] at hc'
      subst hc'
      rw [hb] at hm
      rcases List.mem_append.1 hm with hm | hm
      · simp only [Option.toList_some, List.mem_singleton] at hm
        subst hm
        exact zero_pointwise hsame.1
      · obtain ⟨q, hq, hk⟩ := List.mem_map.1 (hsub.subset (List.mem_map_of_mem hm))
        have hid := (defaulted ht).ip
        rw [hip] at hid
        simp only [dotVars, Option.getD_some, Option.some.injEq] at hid
        subst hid
        simp only [zeroHeap, if_true, List.mem_singleton] at hq
        subst hq
        exact spotted_pointwise ((samePeak_iff _ _).2 hk.symm).1)

example : ((fitSingle (codeWorld (spots .aic)) dotDef ⟨dotVars (some 1) none, zeroHeap, none⟩).2.extracted.map (fun c => c.model.map (fun p => p.pars))) = some [[2, 5]] := by
  decide +kernel

end Verif.Parts.Extract
