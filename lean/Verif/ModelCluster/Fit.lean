import Verif.ModelCluster.Props
import Verif.Parts.Props
import Mathlib.Data.List.Sort

/-!
# C27: `ModelCluster.fit` never makes the cluster worse; C59: `reduce_to`
-/

set_option linter.unusedSectionVars false

namespace Verif.Parts.ModelCluster

open Verif.Py Verif.PeakList

variable {K : Type} [Field K] [LinearOrder K]

/-- All qualities come from one evaluator class, and are evaluated: they can be compared. -/
def Comparable (E : Env K) : Prop :=
  ∃ (m : String) (h : Bool), ∀ ps bl, ∃ s, (E.quality ps bl).method = m ∧
    (E.quality ps bl).higherIsBetter = h ∧ (E.quality ps bl).stat = some s

/-- The evaluation `q` is not worse than the quality of `m` with the baseline `b`. -/
def NotWorse (E : Env K) (q : Evaluator.Ev K) (m : List (Part K)) (b : Option (Part K)) : Prop :=
  ∃ s t, q.stat = some s ∧ (E.quality m b).stat = some t ∧
    (if q.higherIsBetter then t ≤ s else s ≤ t)

theorem lt_ok {E : Env K} (hE : Comparable E) (m m' : List (Part K)) (b b' : Option (Part K)) :
    ∃ v, Evaluator.lt (E.quality m b) (E.quality m' b') = .ok v ∧
      (v = false ↔ NotWorse E (E.quality m b) m' b') := by
  obtain ⟨k, h, hall⟩ := hE
  obtain ⟨s, a1, a2, a3⟩ := hall m b
  obtain ⟨t, b1, b2, b3⟩ := hall m' b'
  have hg : Evaluator.guard2 (E.quality m b) (E.quality m' b') = .ok (s, t) := by
    unfold Evaluator.guard2
    rw [if_neg (by rw [a1, b1]; simp), a3, b3]
  refine ⟨_, by unfold Evaluator.lt; rw [hg]; rfl, ?_⟩
  unfold NotWorse
  rw [a2, a3, b3]
  cases h <;> simp

/-- Everything in the cluster that a fit must leave alone. -/
structure SameData (c c' : Cluster K) : Prop where
  r : c'.r = c.r
  y : c'.y = c.y
  err : c'.err = c.err
  rId : c'.rId = c.rId
  yId : c'.yId = c.yId
  eId : c'.eId = c.eId
  method : c'.method = c.method
  funcs : c'.funcs = c.funcs
  slice : c'.slice = c.slice
  neverFit : c'.neverFit = c.neverFit

theorem SameData.refl (c : Cluster K) : SameData c c := ⟨rfl, rfl, rfl, rfl, rfl, rfl, rfl, rfl, rfl, rfl⟩

/-- The outcomes of the second part of `fit`. -/
theorem fitCore_cases (E : Env K) (hE : Comparable E) (o : Opts) (c : Cluster K) :
    SameData c (fitCore E o c).2.1 ∧ (fitCore E o c).2.1.lastFit = c.size ∧
    ((fitCore E o c).1 = .ok none ∧ (fitCore E o c).2.1.model = c.model ∧
        (fitCore E o c).2.1.baseline = c.baseline ∨
     (∃ q m0, (launch E o c) = (.ok (), m0, (fitCore E o c).2.1.baseline) ∧
        (fitCore E o c).1 = .ok (some q) ∧
        (fitCore E o c).2.1.model = E.clean (sort E.as false pos m0) ∧
        q = E.quality (fitCore E o c).2.1.model (fitCore E o c).2.1.baseline ∧
        NotWorse E q c.model c.baseline ∧
        ¬ (o.justify = true ∧ (fitCore E o c).2.1.model.length = 1 ∧ 0 < c.model.length ∧
            E.growth (fitCore E o c).2.1.model (fitCore E o c).2.1.baseline = true)) ∨
     (∃ e m bl, e ≠ .fit ∧ launch E o c = (.error e, m, bl) ∧ (fitCore E o c).1 = .error e ∧
        (fitCore E o c).2.1.model = m ∧ (fitCore E o c).2.1.baseline = bl)) := by
  unfold fitCore
  simp only
  generalize hl : launch E o c = l
  obtain ⟨res, m0, bl⟩ := l
  cases res with
  | error e =>
    have hd : SameData c { c with lastFit := c.size } := ⟨rfl, rfl, rfl, rfl, rfl, rfl, rfl, rfl, rfl, rfl⟩
    have hd2 : SameData c { c with lastFit := c.size, model := m0, baseline := bl } :=
      ⟨rfl, rfl, rfl, rfl, rfl, rfl, rfl, rfl, rfl, rfl⟩
    cases e <;> first
      | exact ⟨hd2, rfl, Or.inr (Or.inr ⟨_, m0, bl, by simp, rfl, rfl, rfl, rfl⟩)⟩
      | exact ⟨hd, rfl, Or.inl ⟨rfl, rfl, rfl⟩⟩
  | ok u =>
    simp only
    obtain ⟨v, hv1, hv2⟩ := lt_ok hE (E.clean (sort E.as false pos m0)) c.model bl c.baseline
    rw [hv1]
    cases v with
    | true => exact ⟨⟨rfl, rfl, rfl, rfl, rfl, rfl, rfl, rfl, rfl, rfl⟩, rfl, Or.inl ⟨rfl, rfl, rfl⟩⟩
    | false =>
      simp only
      split
      · exact ⟨⟨rfl, rfl, rfl, rfl, rfl, rfl, rfl, rfl, rfl, rfl⟩, rfl, Or.inl ⟨rfl, rfl, rfl⟩⟩
      · rename_i hg
        exact ⟨⟨rfl, rfl, rfl, rfl, rfl, rfl, rfl, rfl, rfl, rfl⟩, rfl,
          Or.inr (Or.inl ⟨_, m0, rfl, rfl, rfl, rfl, hv2.1 rfl, hg⟩)⟩

/-- **C27.** Fitting a cluster that has peaks, whatever the optimiser does: if `fit` returns an
evaluation, it is that of the cluster's new model and not worse than that of the old one; if it
returns None, the peaks and the baseline are exactly those from before; nothing else changes but the size
at the last fit.  With `justify`, an evaluation of a single-peak model is returned only if more peaks
would not be justified. -/
theorem c27_fit (E : Env K) (hE : Comparable E) (o : Opts) (c : Cluster K) (hne : c.model ≠ []) :
    SameData c (fit E o c).2.1 ∧
    (∀ q, (fit E o c).1 = .ok (some q) →
      q = E.quality (fit E o c).2.1.model (fit E o c).2.1.baseline ∧
      NotWorse E q c.model c.baseline ∧ c.neverFit = false ∧
      (o.justify = true → (fit E o c).2.1.model.length = 1 →
        E.growth (fit E o c).2.1.model (fit E o c).2.1.baseline = false)) ∧
    ((fit E o c).1 = .ok none →
      (fit E o c).2.1.model = c.model ∧ (fit E o c).2.1.baseline = c.baseline) ∧
    (o.fitbaseline = false → (fit E o c).2.1.baseline = c.baseline) := by
  have hb : o.fitbaseline = false → ∀ r m bl, launch E o c = (r, m, bl) → bl = c.baseline := by
    intro h r m bl hl
    have hfb : fitBaseline o c = none := by
      unfold fitBaseline
      cases c.baseline <;> simp [h]
    unfold launch at hl
    rw [hfb] at hl
    simp only [Prod.mk.injEq] at hl
    exact hl.2.2.symm
  unfold fit
  by_cases hn : c.neverFit = true
  · rw [if_pos hn]
    refine ⟨SameData.refl c, ?_, fun _ => ⟨rfl, rfl⟩, fun _ => rfl⟩
    intro q hq
    simp at hq
  · rw [if_neg hn, if_neg hne]
    obtain ⟨h1, -, h2⟩ := fitCore_cases E hE o c
    refine ⟨h1, ?_, ?_, ?_⟩
    · intro q hq
      rcases h2 with ⟨a, -, -⟩ | ⟨q', m0, -, a, -, b1, b2, b3⟩ | ⟨e, m, bl, -, -, a, -, -⟩
      · rw [a] at hq; simp at hq
      · rw [a] at hq
        simp only [Except.ok.injEq, Option.some.injEq] at hq
        subst hq
        refine ⟨b1, b2, by simpa using hn, ?_⟩
        intro hj hlen
        by_contra hg
        exact b3 ⟨hj, hlen, List.length_pos_iff.2 hne, by simpa using hg⟩
      · rw [a] at hq; simp at hq
    · intro hq
      rcases h2 with ⟨-, a, b⟩ | ⟨q', m0, -, a, -, b1, b2, b3⟩ | ⟨e, m, bl, -, -, a, -, -⟩
      · exact ⟨a, b⟩
      · rw [a] at hq; simp at hq
      · rw [a] at hq; simp at hq
    · intro hf
      rcases h2 with ⟨-, -, a⟩ | ⟨q', m0, a, -⟩ | ⟨e, m, bl, -, a, -, -, b⟩
      · exact a
      · exact hb hf _ _ _ a
      · rw [b]; exact hb hf _ _ _ a

/-! ### Which peaks a fit keeps, with the actual `ModelParts.fit` -/

/-- `ModelParts.fit` (Verif.Parts.fit) as the fit of an environment; the optimiser's two runs may depend
on the parts. -/
def lsqOf (F : Flt K) (nr : ℕ) (cov : Bool) (l1 l2 : List (Part K) → Lsq K) (ps : List (Part K)) :
    Res Unit × List (Part K) :=
  ((Parts.fit F ps nr cov (l1 ps) (l2 ps)).1.map (fun _ => ()), (Parts.fit F ps nr cov (l1 ps) (l2 ps)).2)

/-- A part has as many parameter values as its function has parameters, all of floating-point type (if its function keeps
their number in every change of format). -/
def Shaped (p : Part K) : Prop :=
  (∀ v i o q, p.owner.transform v i o = .ok q → q.length = v.length) → p.pars.length = p.owner.npars ∧ p.isInt = false

/-- `norm i` of parameter `i` stays when the function normalises parameters (`transform_parameters` from the internal format to the
internal format, e.g. the absolute value of an area). -/
def Keeps (o : Owner K) (norm : ℕ → K → K) : Prop :=
  ∀ (v q : List K) (i : ℕ), o.transform v (some "internal") (some "internal") = .ok q → (q[i]?).map (norm i) = (v[i]?).map (norm i)

open Classical in
/-- The values that are held fixed, up to normalisation. -/
noncomputable def Fixed (p : Part K) (norm : ℕ → K → K) (i : ℕ) : Option K :=
  if Keeps p.owner norm ∧ p.free[i]? = some false then (p.pars[i]?).map (norm i) else none

/-- What a fit never changes in a peak: its function, its flags, whether it may be removed or change its
function, whether it has the values that its function needs, and the values that are held fixed. -/
structure Frame (p q : Part K) : Prop where
  owner : q.owner = p.owner
  free : q.free = p.free
  removable : q.removable = p.removable
  static : q.staticOwner = p.staticOwner
  shaped : Shaped q = Shaped p
  fixed : Fixed q = Fixed p

/-- Other values, as many. -/
theorem shaped_pars {p q : Part K} (h1 : q.owner = p.owner) (h2 : q.isInt = p.isInt) (h3 : q.pars.length = p.pars.length) :
    Shaped q = Shaped p := by
  unfold Shaped
  rw [h1, h2, h3]

/-- The values that the function itself makes of them. -/
theorem shaped_transform {p : Part K} {i o : Option String} {v : List K} (h : p.owner.transform p.pars i o = .ok v) :
    Shaped { p with pars := v } = Shaped p := by
  unfold Shaped
  apply propext
  constructor
  · intro h0 h3
    exact ⟨(h3 _ _ _ _ h).symm.trans (h0 h3).1, (h0 h3).2⟩
  · intro h0 h3
    exact ⟨(h3 _ _ _ _ h).trans (h0 h3).1, (h0 h3).2⟩

/-- Other values of free parameters. -/
theorem fixed_pars {p q : Part K} (h1 : q.owner = p.owner) (h2 : q.free = p.free)
    (h3 : ∀ i : ℕ, p.free[i]? = some false → q.pars[i]? = p.pars[i]?) : Fixed q = Fixed p := by
  funext norm i
  unfold Fixed
  rw [h1, h2]
  by_cases h : Keeps p.owner norm ∧ p.free[i]? = some false
  · rw [if_pos h, if_pos h, h3 i h.2]
  · rw [if_neg h, if_neg h]

theorem fixed_transform {p : Part K} {v : List K} (h : p.owner.transform p.pars (some "internal") (some "internal") = .ok v) :
    Fixed { p with pars := v } = Fixed p := by
  funext norm i
  unfold Fixed
  by_cases h' : Keeps p.owner norm ∧ p.free[i]? = some false
  · rw [if_pos h', if_pos h']
    exact h'.1 _ _ i h
  · rw [if_neg h', if_neg h']

theorem lsqOf_frame (F : Flt K) (nr : ℕ) (cov : Bool) (l1 l2 : List (Part K) → Lsq K) (ps : List (Part K))
    (hv : ∀ p ∈ ps, Valid p) (hint : ∀ p ∈ ps, p.isInt = false)
    (h : (lsqOf F nr cov l1 l2 ps).1 = .ok ()) :
    List.Forall₂ Frame ps (lsqOf F nr cov l1 l2 ps).2 := by
  unfold lsqOf at h ⊢
  generalize hf : Parts.fit F ps nr cov (l1 ps) (l2 ps) = f at h ⊢
  obtain ⟨res, qs⟩ := f
  cases res with
  | error e => simp [Except.map] at h
  | ok cc =>
    simp only
    have hrefl : List.Forall₂ Frame ps ps := by
      clear hv hint hf
      induction ps with
      | nil => exact List.Forall₂.nil
      | cons p ps ih => exact List.Forall₂.cons ⟨rfl, rfl, rfl, rfl, rfl, rfl⟩ ih
    by_cases hfree : 0 < npars ps false
    · obtain ⟨-, x, ier, covx, fvec, ms, -, -, -, s1, -, s2, -⟩ :=
        c18_fit_success F ps hv hint nr cov (l1 ps) (l2 ps) hf hfree
      clear hf hv hint hfree hrefl h
      induction s1 generalizing qs with
      | nil => cases s2; exact List.Forall₂.nil
      | @cons p m ps ms h1 h2 ih =>
        cases s2 with
        | @cons _ q _ qs h3 h4 =>
          refine List.Forall₂.cons ?_ (ih _ h4)
          obtain ⟨n1, n0, n2⟩ := h3
          rw [n2]
          exact ⟨h1.owner, h1.free, h1.removable, h1.staticOwner, (shaped_transform n0).trans (shaped_pars h1.owner h1.isInt h1.length),
            (fixed_transform n0).trans (fixed_pars h1.owner h1.free h1.fixed)⟩
    · obtain ⟨r1, r2, r3⟩ := c18_fit_refusals F ps hv nr cov (l1 ps) (l2 ps)
      by_cases hne : ps = []
      · rw [r1 hne] at hf; simp at hf
      · by_cases hnr : 0 < nr
        · rw [r3 hne (by omega) hnr] at hf
          simp only [Prod.mk.injEq] at hf
          rw [← hf.2]; exact hrefl
        · rw [r2 hne (by omega)] at hf
          simp at hf

open Classical in
/-- **C27.** A successful fit keeps the peaks: with the actual `ModelParts.fit` on any optimiser, and the
actual `cleanfit`, the new model is made of the fitted versions of the old peaks, each with its function,
its flags of free parameters and its removability, in order of position, without those that `cleanfit`
regards as poor.  In particular no non-removable peak with proper numbers is ever lost. -/
theorem c27_fit_keeps_peaks (E : Env K) (hE : Comparable E) (has : SortsKeys E.as) (o : Opts)
    (c : Cluster K) (hne : c.model ≠ [])
    (F : Flt K) (nr : ℕ) (cov : Bool) (l1 l2 : List (Part K) → Lsq K)
    (hlsq : E.lsq = lsqOf F nr cov l1 l2) (r0 r1 : K) (below : Part K → Bool)
    (hclean : ∀ ps, E.clean ps = (cleanfit F.isnan r0 r1 below ps).2)
    (hv : ∀ p ∈ c.model, Valid p) (hint : ∀ p ∈ c.model, p.isInt = false)
    (hvb : ∀ b, c.baseline = some b → Valid b ∧ b.isInt = false)
    {q : Evaluator.Ev K} (hq : (fit E o c).1 = .ok (some q)) :
    ∃ fitted : List (Part K), List.Forall₂ Frame c.model fitted ∧
      (fit E o c).2.1.model.Perm (fitted.filter (fun p => ¬ Poor F.isnan r0 r1 below p)) ∧
      (fit E o c).2.1.model.Pairwise (fun p q => pos p ≤ pos q) := by
  unfold fit at hq ⊢
  by_cases hn : c.neverFit = true
  · rw [if_pos hn] at hq; simp at hq
  rw [if_neg hn, if_neg hne] at hq ⊢
  obtain ⟨-, -, h2⟩ := fitCore_cases E hE o c
  rcases h2 with ⟨a, -, -⟩ | ⟨q', m0, hl, -, hm, -⟩ | ⟨e, m, bl, -, -, a, -, -⟩
  · rw [a] at hq; simp at hq
  swap
  · rw [a] at hq; simp at hq
  have hfr : List.Forall₂ Frame c.model m0 := by
    unfold launch at hl
    cases hfb : fitBaseline o c with
    | none =>
      rw [hfb] at hl
      simp only [Prod.mk.injEq, hlsq] at hl
      rw [← hl.2.1]
      exact lsqOf_frame F nr cov l1 l2 c.model hv hint hl.1
    | some b =>
      rw [hfb] at hl
      simp only [Prod.mk.injEq, hlsq] at hl
      have hb : c.baseline = some b := by
        unfold fitBaseline at hfb
        cases hcb : c.baseline with
        | none => rw [hcb] at hfb; simp at hfb
        | some b' =>
          rw [hcb] at hfb
          simp only at hfb
          split at hfb
          · exact hfb
          · simp at hfb
      obtain ⟨v1, v2⟩ := hvb b hb
      have hall := lsqOf_frame F nr cov l1 l2 (c.model ++ [b]) (by
        intro p hp
        rcases List.mem_append.1 hp with hp | hp
        · exact hv p hp
        · rw [List.mem_singleton.1 hp]; exact v1) (by
        intro p hp
        rcases List.mem_append.1 hp with hp | hp
        · exact hint p hp
        · rw [List.mem_singleton.1 hp]; exact v2) hl.1
      rw [← hl.2.1]
      generalize hX : (lsqOf F nr cov l1 l2 (c.model ++ [b])).2 = X at hall ⊢
      have hlen := hall.length_eq
      have h3 := (List.forall₂_iff_get.1 hall).2
      refine List.forall₂_iff_get.2 ⟨by simp at hlen ⊢; omega, ?_⟩
      intro i hi1 hi2
      have := h3 i (by simp; omega) (by simp at hi2; omega)
      simpa [List.getElem_append_left hi1] using this
  refine ⟨m0, hfr, ?_⟩
  obtain ⟨s1, s2⟩ := c37_sort has false pos m0
  obtain ⟨k1, -⟩ := c58_cleanfit F.isnan r0 r1 below (sort E.as false pos m0) s2
  rw [hm, hclean, k1]
  exact ⟨s1.filter _, s2.filter _⟩

/-! ### Concrete clusters -/

/-- A stable argsort. -/
def mergeAs (keys : List K) : List ℕ :=
  (List.range keys.length).insertionSort (fun a b => keys.getD a 0 ≤ keys.getD b 0)

theorem mergeAs_sorts : SortsKeys (mergeAs (K := K)) := by
  intro keys
  refine ⟨List.perm_insertionSort _ _, ?_⟩
  intro i j a b ka kb hij ha hb hka hkb
  have : Std.Total (fun a b : ℕ => keys.getD a 0 ≤ keys.getD b 0) := ⟨fun _ _ => le_total _ _⟩
  have : IsTrans ℕ (fun a b : ℕ => keys.getD a 0 ≤ keys.getD b 0) := ⟨fun _ _ _ => le_trans⟩
  have hp := List.pairwise_insertionSort (fun a b : ℕ => keys.getD a 0 ≤ keys.getD b 0)
    (List.range keys.length)
  have hj : j < (mergeAs keys).length := by
    by_contra hc
    rw [List.getElem?_eq_none (by omega)] at hb
    simp at hb
  have := (List.pairwise_iff_getElem.1 hp) i j (by unfold mergeAs at hj; omega) (by unfold mergeAs at hj; omega) hij
  unfold mergeAs at ha hb
  rw [List.getElem?_eq_getElem (by unfold mergeAs at hj; omega)] at ha hb
  simp only [Option.some.injEq] at ha hb
  rw [ha, hb] at this
  simpa [List.getD, hka, hkb] using this

/-- A world in which the best model has positions of sum 5 (lower is better), the optimiser halves every
position, and the first peak is estimated at 4. -/
def exEnv : Env ℚ where
  quality ps _ := ⟨"AIC", false, some |(ps.map pos).sum - 5|, none⟩
  growth _ _ := false
  lsq ps := (.ok (), ps.map (fun p => { p with pars := p.pars.map (· / 2) }))
  estimate := .ok (some (box 4 true))
  clean ps := ps
  as := mergeAs

theorem exEnv_comparable : Comparable exEnv := ⟨"AIC", false, fun _ _ => ⟨_, rfl, rfl, rfl⟩⟩

/-- Two peaks, at 6 and 4: fitting gives 2 and 3, a perfect model. -/
def exFitted : Cluster ℚ := { exCluster with model := [box 6 true, box 4 true], slice := some ⟨some 0, 3⟩ }

/-- The criterion returned by a call: nothing if it raised, `some none` for None. -/
def statOf (r : Res (Option (Evaluator.Ev ℚ))) : Option (Option ℚ) :=
  match r with
  | .error _ => none
  | .ok none => some none
  | .ok (some q) => some q.stat

/-- Instance of `c27_fit`: an improvement is kept (and sorted), and a fit of the result, which would make
it worse, is not. -/
example : statOf (fit exEnv {} exFitted).1 = some (some 0) ∧
    (fit exEnv {} exFitted).2.1.model.map Part.pars = [[2], [3]] ∧
    statOf (fit exEnv {} (fit exEnv {} exFitted).2.1).1 = some none ∧
    (fit exEnv {} (fit exEnv {} exFitted).2.1).2.1.model.map Part.pars = [[2], [3]] := by
  refine ⟨?_, ?_, ?_, ?_⟩ <;> decide +kernel

/-- Instance of `c27_fit_keeps_peaks`: the actual `ModelParts.fit`, with an optimiser that tries 7, 8 and
reports 3, 2. -/
example : ∃ E : Env ℚ, Comparable E ∧ SortsKeys E.as ∧
    E.lsq = lsqOf ratFlt 4 false (fun _ => ⟨[[7, 8]], .done [3, 2] 1 none []⟩) (fun _ => ⟨[], .raises .value⟩) ∧
    (∀ ps, E.clean ps = (cleanfit ratFlt.isnan 0 2 (fun p => decide (pos p = 2)) ps).2) ∧
    (∀ p ∈ exFitted.model, Valid p) ∧ (∀ p ∈ exFitted.model, p.isInt = false) ∧
    statOf (fit E {} exFitted).1 = some (some 2) ∧ (fit E {} exFitted).2.1.model.map Part.pars = [[3]] := by
  refine ⟨{ exEnv with
      lsq := lsqOf ratFlt 4 false (fun _ => ⟨[[7, 8]], .done [3, 2] 1 none []⟩) (fun _ => ⟨[], .raises .value⟩)
      clean := fun ps => (cleanfit ratFlt.isnan 0 2 (fun p => decide (pos p = 2)) ps).2 },
    ⟨"AIC", false, fun _ _ => ⟨_, rfl, rfl, rfl⟩⟩, mergeAs_sorts, rfl, fun _ => rfl, ?_, ?_, ?_, ?_⟩
  · intro p hp
    simp only [exFitted, List.mem_cons, List.not_mem_nil, or_false] at hp
    rcases hp with rfl | rfl <;> exact ⟨rfl, rfl⟩
  · intro p hp
    simp only [exFitted, List.mem_cons, List.not_mem_nil, or_false] at hp
    rcases hp with rfl | rfl <;> rfl
  · decide +kernel
  · decide +kernel

/-! ### Fitting a cluster without peaks -/

/-- **C27.** Fitting a cluster without peaks, with data above the uncertainty: with `estimate=False`, or
when estimating fails, None is returned and the cluster stays as it is.  Otherwise the estimated peak is
the model the fit starts from: an evaluation returned is not worse than that of the estimated peak, and
when None is returned the model is that peak. -/
theorem c27_fit_empty (E : Env K) (hE : Comparable E) (has : SortsKeys E.as) (o : Opts) (c : Cluster K)
    (h0 : c.model = []) (hn : c.neverFit = false) :
    (o.estimate = false → (fit E o c).1 = .ok none ∧ (fit E o c).2.1 = c) ∧
    (E.estimate = .error .estimation → (fit E o c).1 = .ok none ∧ (fit E o c).2.1 = c) ∧
    (∀ p, o.estimate = true → E.estimate = .ok (some p) →
      SameData c (fit E o c).2.1 ∧
      (∀ q, (fit E o c).1 = .ok (some q) →
        q = E.quality (fit E o c).2.1.model (fit E o c).2.1.baseline ∧ NotWorse E q [p] c.baseline) ∧
      ((fit E o c).1 = .ok none → (fit E o c).2.1.model = [p] ∧ (fit E o c).2.1.baseline = c.baseline)) := by
  have hcm : { c with model := [] } = c := by rw [← h0]
  refine ⟨?_, ?_, ?_⟩
  · intro ho
    unfold fit
    rw [if_neg (by simp [hn]), if_pos h0, if_neg (by simp [ho])]
    exact ⟨rfl, rfl⟩
  · intro he
    unfold fit
    rw [if_neg (by simp [hn]), if_pos h0]
    by_cases ho : o.estimate = true
    · rw [if_pos ho]
      have : estimatepeak E c.model = (.error .estimation, c.model) := by unfold estimatepeak; rw [he]
      rw [this]
      exact ⟨rfl, by simp only [h0]; exact hcm⟩
    · rw [if_neg ho]; exact ⟨rfl, rfl⟩
  · intro p ho he
    have hsort : sort E.as false pos [p] = [p] := List.perm_singleton.1 (c37_sort has false pos [p]).1
    have hest : estimatepeak E c.model = (.ok true, [p]) := by
      unfold estimatepeak replacepeaks
      rw [he, h0]
      simp [getSlice, bounds, hsort]
    have hfit : fit E o c = fitCore E o { c with model := [p] } := by
      unfold fit
      rw [if_neg (by simp [hn]), if_pos h0, if_pos ho, hest]
    rw [hfit]
    obtain ⟨h1, -, h2⟩ := fitCore_cases E hE o { c with model := [p] }
    refine ⟨⟨h1.r, h1.y, h1.err, h1.rId, h1.yId, h1.eId, h1.method, h1.funcs, h1.slice, h1.neverFit⟩, ?_, ?_⟩
    · intro q hq
      rcases h2 with ⟨a, -, -⟩ | ⟨q', m0, -, a, -, b1, b2, b3⟩ | ⟨e, m, bl, -, -, a, -, -⟩
      · rw [a] at hq; simp at hq
      · rw [a] at hq
        simp only [Except.ok.injEq, Option.some.injEq] at hq
        subst hq
        exact ⟨b1, b2⟩
      · rw [a] at hq; simp at hq
    · intro hq
      rcases h2 with ⟨-, a, b⟩ | ⟨q', m0, -, a, -, b1, b2, b3⟩ | ⟨e, m, bl, -, -, a, -, -⟩
      · exact ⟨a, b⟩
      · rw [a] at hq; simp at hq
      · rw [a] at hq; simp at hq

/-- **C27, finding.** `fit` documents None as "the fit did not change the model".  On a cluster without
peaks it can return None although the cluster now has a peak: the estimated one, which was not better
after the fit. -/
theorem c27_none_but_changed :
    statOf (fit exEnv {} { exFitted with model := [] }).1 = some none ∧
    (fit exEnv {} { exFitted with model := [] }).2.1.model.map Part.pars = [[4]] := by
  constructor <;> decide +kernel

/-- **C27, finding.** Only SrMiseFitError reverts a fit.  Any other exception of the fit, such as the
TypeError for a singular covariance matrix (`c18_singular_cov_type_error`), leaves the cluster with the
parameters the optimiser stopped at. -/
theorem c27_exception_moves_parameters (E : Env K) (c : Cluster K) (hne : c.model ≠ [])
    (hn : c.neverFit = false) (e : Err) (he : e ≠ .fit) (m : List (Part K))
    (hl : E.lsq c.model = (.error e, m)) :
    (fit E {} c).1 = .error e ∧ (fit E {} c).2.1.model = m := by
  have hb : fitBaseline {} c = none := by unfold fitBaseline; cases c.baseline <;> simp
  have hlaunch : launch E {} c = (.error e, m, c.baseline) := by
    unfold launch; rw [hb, hl]
  unfold fit
  rw [if_neg (by simp [hn]), if_neg hne]
  cases e <;> first | exact absurd rfl he | (simp [fitCore, hlaunch])

/-! ### C59: reduce_to -/

/-- **C59.** `reduce_to(x, y)`: whenever it returns None, the peaks and the baseline are exactly those
from before.  When it returns an evaluation, the model was at least `y` at `x`, the evaluation is that of the
cluster's model, that model is not worse than the one scaled to the height asked for, and further peaks
would not be justified. -/
theorem c59_reduce_to (E : Env K) (hE : Comparable E) (has : SortsKeys E.as)
    (sc : Part K → K → K → Res (List K)) (val : Part K → K → K) (blx : K) (c : Cluster K) (x y : K) :
    ((reduceTo E sc val blx c x y).1 = .ok none →
      (reduceTo E sc val blx c x y).2.model = c.model ∧
      (reduceTo E sc val blx c x y).2.baseline = c.baseline) ∧
    (∀ q, (reduceTo E sc val blx c x y).1 = .ok (some q) → c.model ≠ [] →
      y ≤ valueAt val c.model x ∧
      q = E.quality (reduceTo E sc val blx c x y).2.model c.baseline ∧
      NotWorse E q (matchAt sc val c.model x (y - blx)).2 c.baseline ∧
      E.growth (reduceTo E sc val blx c x y).2.model c.baseline = false) := by
  unfold reduceTo
  by_cases hlt : valueAt val c.model x < y
  · rw [if_pos hlt]
    exact ⟨fun _ => ⟨rfl, rfl⟩, fun q hq => by simp at hq⟩
  rw [if_neg hlt]
  simp only
  generalize hm : (matchAt sc val c.model x (y - blx)).2 = m
  have hbase : (fit E {} { c with model := m }).2.1.baseline = c.baseline ∨
      ∃ e, (fit E {} { c with model := m }).1 = .error e := by
    by_cases hme : m = []
    · by_cases hn : c.neverFit = true
      · left; unfold fit; rw [if_pos hn]
      · cases he : E.estimate with
        | error e =>
          have : estimatepeak E m = (.error e, m) := by unfold estimatepeak; rw [he]
          by_cases hes : e = .estimation
          · left
            obtain ⟨-, k, -⟩ := c27_fit_empty E hE has {} { c with model := m } hme (by simpa using hn)
            rw [(k (by rw [he, hes])).2]
          · right
            refine ⟨e, ?_⟩
            unfold fit
            rw [if_neg hn, if_pos hme, if_pos rfl]
            simp only [this]
        | ok op =>
          cases op with
          | some p =>
            obtain ⟨-, -, k⟩ := c27_fit_empty E hE has {} { c with model := m } hme (by simpa using hn)
            have hsort : sort E.as false pos [p] = [p] := List.perm_singleton.1 (c37_sort has false pos [p]).1
            have hest : estimatepeak E m = (.ok true, [p]) := by
              unfold estimatepeak replacepeaks
              rw [he, hme]
              simp [getSlice, bounds, hsort]
            have hfit : fit E {} { c with model := m } = fitCore E {} { c with model := [p] } := by
              unfold fit
              rw [if_neg hn, if_pos hme, if_pos rfl]
              simp only [hest]
            rw [hfit]
            left
            obtain ⟨-, -, h2⟩ := fitCore_cases E hE {} { c with model := [p] }
            have hb : fitBaseline {} { c with model := [p] } = none := by
              unfold fitBaseline; cases c.baseline <;> simp
            have hla : ∀ r m' bl, launch E {} { c with model := [p] } = (r, m', bl) → bl = c.baseline := by
              intro r m' bl h
              unfold launch at h
              rw [hb] at h
              simp only [Prod.mk.injEq] at h
              exact h.2.2.symm
            rcases h2 with ⟨-, -, a⟩ | ⟨q', m0, a, -⟩ | ⟨e, m', bl, -, a, -, -, b⟩
            · exact a
            · exact hla _ _ _ a
            · rw [b]; exact hla _ _ _ a
          | none =>
            have hest : estimatepeak E m = (.ok false, m) := by unfold estimatepeak; rw [he]
            have hfit : fit E {} { c with model := m } = fitCore E {} { c with model := m } := by
              unfold fit
              rw [if_neg hn, if_pos hme, if_pos rfl]
              simp only [hest]
            rw [hfit]
            left
            obtain ⟨-, -, h2⟩ := fitCore_cases E hE {} { c with model := m }
            have hb : fitBaseline {} { c with model := m } = none := by
              unfold fitBaseline; cases c.baseline <;> simp
            have hla : ∀ r m' bl, launch E {} { c with model := m } = (r, m', bl) → bl = c.baseline := by
              intro r m' bl h
              unfold launch at h
              rw [hb] at h
              simp only [Prod.mk.injEq] at h
              exact h.2.2.symm
            rcases h2 with ⟨-, -, a⟩ | ⟨q', m0, a, -⟩ | ⟨e, m', bl, -, a, -, -, b⟩
            · exact a
            · exact hla _ _ _ a
            · rw [b]; exact hla _ _ _ a
    · left
      exact (c27_fit E hE {} { c with model := m } hme).2.2.2 rfl
  generalize hf : fit E {} { c with model := m } = f at hbase
  obtain ⟨res, c', l⟩ := f
  cases res with
  | error e => exact ⟨fun h => by simp at h, fun q hq => by simp at hq⟩
  | ok oq =>
    have hb : c'.baseline = c.baseline := by
      rcases hbase with h | ⟨e, h⟩
      · exact h
      · simp at h
    cases oq with
    | none => exact ⟨fun _ => ⟨rfl, hb⟩, fun q hq => by simp at hq⟩
    | some q' =>
      simp only
      split
      · exact ⟨fun _ => ⟨rfl, hb⟩, fun q hq => by simp at hq⟩
      · rename_i hg
        refine ⟨fun h => by simp at h, ?_⟩
        intro q hq hne
        simp only [Except.ok.injEq, Option.some.injEq] at hq
        subst hq
        have hme : m ≠ [] := by
          intro hc
          have : ∀ ps : List (Part K), (matchAt sc val ps x (y - blx)).2 = [] → ps = [] := by
            intro ps h
            have hfl : ∀ s qs, (firstAttempt sc val x s qs).2.length = qs.length := by
              intro s qs
              induction qs with
              | nil => rfl
              | cons p qs ih =>
                unfold firstAttempt
                generalize scaleAt sc p x s = a
                obtain ⟨a1, a2⟩ := a
                cases a1 with
                | error e => simp
                | ok b =>
                  simp only
                  generalize hfa : firstAttempt sc val x s qs = fa at ih ⊢
                  obtain ⟨f1, f2⟩ := fa
                  cases f1 with
                  | error e => simpa using ih
                  | ok z => simpa using ih
            unfold matchAt at h
            simp only at h
            split at h
            · exact h
            · generalize hfa : firstAttempt sc val x ((y - blx) / valueAt val ps x) ps = fa at h
              have hl := hfl ((y - blx) / valueAt val ps x) ps
              rw [hfa] at hl
              obtain ⟨f1, f2⟩ := fa
              cases f1 with
              | error e => exact h
              | ok z =>
                obtain ⟨z1, z2⟩ := z
                simp only at h
                split at h
                · split at h
                  · split at h
                    · simp at h
                    · split at h <;> simp at h
                  · exact h
                · simp only at h hl
                  rw [h] at hl
                  exact List.length_eq_zero_iff.1 hl.symm
          exact hne (this c.model (by rw [hm]; exact hc))
        have h27 := c27_fit E hE {} { c with model := m } hme
        rw [hf] at h27
        obtain ⟨-, k, -, -⟩ := h27
        obtain ⟨k1, k2, -, -⟩ := k q' rfl
        simp only at k1 k2
        rw [hb] at k1 hg
        exact ⟨not_lt.1 hlt, k1, k2, by simpa using hg⟩

/-- Instance of `c59_reduce_to`: peaks of heights 2 and 3 are scaled to the height 10 (which fits worse),
the fit halves them, back to the perfect model. -/
example : statOf (reduceTo exEnv (fun p _ s => .ok (p.pars.map (s * ·))) boxVal 0
      { exFitted with model := [box 6 true, box 9 true] } 0 10).1 = some (some 0) ∧
    (reduceTo exEnv (fun p _ s => .ok (p.pars.map (s * ·))) boxVal 0
      { exFitted with model := [box 6 true, box 9 true] } 0 10).2.model.map Part.pars = [[2], [3]] := by
  constructor <;> decide +kernel

/-- **C59, finding.** The test whether a reduction is necessary looks at the peaks alone and forgets the
baseline: if the peaks are below `y` at `x`, nothing happens, however far peaks and baseline together are
above `y`. -/
theorem c59_ignores_baseline (E : Env K) (sc : Part K → K → K → Res (List K)) (val : Part K → K → K)
    (blx : K) (c : Cluster K) (x y : K) (h : valueAt val c.model x < y)
    (_above : y < valueAt val c.model x + blx) :
    reduceTo E sc val blx c x y = (.ok none, c) := by
  unfold reduceTo; rw [if_pos h]

/-- **C59, finding.** `reduce_to` compares the fit with the scaled model, not with the model before: it can
return an evaluation, and keep a model, that is worse than the model it started from.  Here a perfect model
(sum of positions 5, criterion 0) becomes one with the sum 2 (criterion 3). -/
theorem c59_can_get_worse :
    statOf (reduceTo { exEnv with lsq := fun ps => (.ok (), ps) } (fun p _ s => .ok (p.pars.map (s * ·)))
        boxVal 0 { exFitted with model := [box 2 true, box 3 true] } 0 2).1 = some (some 3) ∧
      (exEnv.quality [box 2 true, box 3 true] none).stat = some 0 := by
  constructor <;> decide +kernel

end Verif.Parts.ModelCluster
