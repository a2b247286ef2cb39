import Verif.Package.Example
import Verif.PdfExtract.Fit

/-!
# Property C105: what the user holds fixed stays fixed

## Specification
-/

set_option linter.unusedSectionVars false

namespace Verif.Parts.Held

open Verif.Py Verif.PeakList Verif.Extraction Verif.Parts.ModelCluster Verif.Parts.Extract
open Verif.Parts.PdfExtract (PObj From ripplesIf withRipples Ripples Uniform Sampler IsSupplied Single realSampler realSampler_uniform)

section

variable {K : Type} [Field K] [LinearOrder K] [IsStrictOrderedRing K]

/-- `q` is `p` with other values of its free parameters: the same function and flags; where a value of `p` is held fixed, `q` has the same value, up to
what the function itself does not distinguish: whatever `norm` of the parameters is respected when the function normalises them
(`transform_parameters` from the internal format into itself), it is the same. -/
structure Refined (p q : Part K) : Prop where
  owner : q.owner = p.owner
  free : q.free = p.free
  removable : q.removable = p.removable
  static : q.staticOwner = p.staticOwner
  held : ∀ norm : ℕ → K → K,
    (∀ (v w : List K) (i : ℕ), p.owner.transform v (some "internal") (some "internal") = .ok w → (w[i]?).map (norm i) = (v[i]?).map (norm i)) →
    ∀ i : ℕ, p.free[i]? = some false → (q.pars[i]?).map (norm i) = (p.pars[i]?).map (norm i)

/-! ## Lemmas -/

theorem fixed_held {p q : Part K} (h1 : q.owner = p.owner) (h2 : q.free = p.free) (h : Fixed q = Fixed p) (norm : ℕ → K → K) (hn : Keeps p.owner norm)
    (i : ℕ) (hi : p.free[i]? = some false) : (q.pars[i]?).map (norm i) = (p.pars[i]?).map (norm i) := by
  have := congrFun (congrFun h norm) i
  unfold Fixed at this
  rw [if_pos ⟨by rw [h1]; exact hn, by rw [h2]; exact hi⟩, if_pos ⟨hn, hi⟩] at this
  exact this

theorem refined_of_key {p q : Part K} (h : key q = key p) : Refined p q := by
  unfold key at h
  simp only [Prod.mk.injEq] at h
  obtain ⟨h1, h2, h3, h4, -, h6⟩ := h
  exact ⟨h1, h2, h3, h4, fun norm hn i hi => fixed_held h1 h2 h6 norm hn i hi⟩

theorem refined_of_same {p q : Part K} (h : SamePeak q p) : Refined p q := refined_of_key ((samePeak_iff q p).1 h)

theorem forall₂_of_keys : ∀ {a b : List (Part K)}, a.map key = b.map key → List.Forall₂ Refined a b
  | [], [], _ => .nil
  | [], _ :: _, h => by simp at h
  | _ :: _, [], h => by simp at h
  | _ :: _, _ :: _, h => by
    simp only [List.map_cons, List.cons.injEq] at h
    exact .cons (refined_of_key h.1.symm) (forall₂_of_keys h.2)

/-- Equal keys up to order. -/
theorem perm_refined {a b : List (Part K)} (h : (b.map key).Perm (a.map key)) : ∃ b', b'.Perm b ∧ List.Forall₂ Refined a b' := by
  have h0 : List.Forall₂ (fun (k : Extract.Key K) (x : Part K) => key x = k) (b.map key) b := by
    clear h
    induction b with
    | nil => exact .nil
    | cons x b ih => exact .cons rfl ih
  obtain ⟨z, hz, hp⟩ := List.perm_comp_forall₂ h.symm h0
  refine ⟨z, hp, forall₂_of_keys ?_⟩
  clear h h0 hp
  generalize hk : a.map key = ks at hz
  clear hk
  induction hz with
  | nil => rfl
  | cons h1 _ ih => rw [List.map_cons, ih, h1]

/-- Keys that are some of those of others. -/
theorem subperm_refined {a b : List (Part K)} (h : (b.map key).Subperm (a.map key)) : ∃ a', a'.Subperm a ∧ List.Forall₂ Refined a' b := by
  obtain ⟨ks, h1, h2⟩ := h
  obtain ⟨l, h3, rfl⟩ := List.sublist_map_iff.1 h2
  have h0 : List.Forall₂ (fun (k : Extract.Key K) (x : Part K) => key x = k) (l.map key) l := by
    clear h1 h2 h3
    induction l with
    | nil => exact .nil
    | cons x b ih => exact .cons rfl ih
  obtain ⟨z, hz, hp⟩ := List.perm_comp_forall₂ h1.symm h0
  refine ⟨z, ⟨l, hp.symm, h3⟩, forall₂_of_keys ?_⟩
  clear h1 h2 h3 h0 hp
  generalize b.map key = ks at hz
  induction hz with
  | nil => rfl
  | cons h1 _ ih => rw [List.map_cons, ih, h1]

end

/-! ## Theorems -/

section

variable {K : Type} [Field K] [LinearOrder K] [IsStrictOrderedRing K]

variable {W : World K} {H : Heap K} {D : Defaults K}

/-- **C105.** The peaks that `extract_single` returns are, each from another one, some of the initial peaks and of new peaks of the peak functions,
with other values of free parameters only; the non-removable ones are exactly the non-removable initial peaks; and the baseline is the
given one — every value that was held fixed is kept. -/
theorem c105_extract (N : Numerics K) (hS : Sorting N) (hN : H.peaks D.noPeaks = []) {n depth : ℕ} {s : PX K} {c : Cluster K} {x y : List K}
    (hr : Ready s x y) (h : extractSingle (codeWorld N) H D n depth s = .ok c) :
    ∃ t pf bl b m before kept, defaultvars D s = (.ok (), t) ∧ t.pf = some pf ∧ t.baseline = some (.inst bl) ∧
      (∀ p ∈ m, New N.func (H.funcs pf) p) ∧
      List.Subperm before (H.peaks (s.initialPeaks.getD D.noPeaks) ++ m) ∧ List.Forall₂ Refined before c.model ∧
      List.Perm kept (c.model.filter (fun p => !p.removable)) ∧
      List.Forall₂ Refined ((H.peaks (s.initialPeaks.getD D.noPeaks)).filter (fun p => !p.removable)) kept ∧
      c.baseline = some b ∧ Refined (H.base bl) b := by
  have hW := c95_sane N hS
  have hE := (c95_estimates N).1
  obtain ⟨t, pf, ip, ht, hpf, -, rfl, -, m, hm, hsub⟩ := c69_provenance hW hE hN hr h
  obtain ⟨t', ht', hres⟩ := c68_whole_range hW hE hN hr h
  rw [ht, Prod.mk.injEq] at ht'
  obtain ⟨-, rfl⟩ := ht'
  obtain ⟨bl, b, hb1, hb2, hb3, -⟩ := hres.base
  obtain ⟨before, h1, h2⟩ := subperm_refined hsub
  obtain ⟨kept, h3, h4⟩ := perm_refined (c70_hard_kept hW hE hN hr h)
  exact ⟨t, pf, bl, b, m, before, kept, ht, hpf, hb1, hm, h1, h2, h3, h4, hb2, refined_of_same hb3⟩

/-- **C105.** `fit_single`: the peaks are some of the initial ones, all that are not removable among them, with their fixed values. -/
theorem c105_fit_single (N : Numerics K) (hS : Sorting N) {o o' : Obj K} {x y : List K} (hr : Ready o.vars x y)
    (h : fitSingle (codeWorld N) D o = (.ok (), o')) :
    ∃ t c ip bl b before kept, defaultvars D o.vars = (.ok (), t) ∧ o'.extracted = some c ∧ t.initialPeaks = some ip ∧ t.baseline = some (.inst bl) ∧
      List.Subperm before (o.heap.peaks ip) ∧ List.Forall₂ Refined before c.model ∧
      List.Perm kept (c.model.filter (fun p => !p.removable)) ∧
      List.Forall₂ Refined ((o.heap.peaks ip).filter (fun p => !p.removable)) kept ∧
      c.baseline = some b ∧ Refined (o.heap.base bl) b := by
  obtain ⟨t, c, ip, ht, -, h3, hres, hip, h6, h7⟩ := (c72_fit_single (c95_sane N hS) hr h).2 rfl
  obtain ⟨bl, b, hb1, hb2, hb3, -⟩ := hres.base
  obtain ⟨before, k1, k2⟩ := subperm_refined h6
  obtain ⟨kept, k3, k4⟩ := perm_refined h7
  exact ⟨t, c, ip, bl, b, before, kept, ht, h3, hip, hb1, k1, k2, k3, k4, hb2, refined_of_same hb3⟩

variable {S : Sampler K}

/-- **C105.** `PDFPeakExtraction.extract`: likewise, the functions of the initial and new peaks having got ripples if qmax is positive; or
the result is a single new peak, and then no initial peak is non-removable. -/
theorem c105_pdf_extract (N : Numerics K) (hS : Sorting N) (hU : Uniform S) (hR : Ripples S) {n : ℕ} {o o' : PObj K}
    (hN : o.heap.peaks D.noPeaks = []) {x y : List K} (hr : Ready o.vars.base x y) (hss : ∀ v, o.vars.supersample = some v → 0 < v)
    (h : PdfExtract.extract (codeWorld N) S D n o = some (.ok (), o')) :
    ∃ P c b kept, From D o.vars P ∧ o'.extracted = some c ∧
      ((∃ m before, (∀ p ∈ m, IsSupplied (codeWorld N) o.heap P p) ∧ List.Subperm before ((o.heap.peaks P.ip ++ m).map (ripplesIf S P.q)) ∧
          List.Forall₂ Refined before c.model) ∨
        ∃ p q, IsSupplied (codeWorld N) o.heap P p ∧ c.model = [q] ∧ Refined p q) ∧
      List.Perm kept (c.model.filter (fun p => !p.removable)) ∧
      List.Forall₂ Refined (((o.heap.peaks P.ip).filter (fun p => !p.removable)).map (ripplesIf S P.q)) kept ∧
      c.baseline = some b ∧ Refined (o.heap.base P.bl) b := by
  obtain ⟨-, P, eff, c, hf, -, hc, hout⟩ := (PdfExtract.c81_extract (c95_sane N hS) (c95_estimates N).1 hU hR n o o' _ hN x y hr hss h).2 rfl
  obtain ⟨b, hb1, hb2⟩ := hout.base
  obtain ⟨kept, h3, h4⟩ := perm_refined hout.hard
  refine ⟨P, c, b, kept, hf, hc, ?_, h3, h4, hb1, refined_of_same hb2⟩
  rcases hout.peaks with ⟨m, hm, hs⟩ | ⟨p, hp, hk⟩
  · obtain ⟨before, h1, h2⟩ := subperm_refined hs
    exact Or.inl ⟨m, before, hm, h1, h2⟩
  · right
    cases hm : c.model with
    | nil => rw [hm] at hk; simp at hk
    | cons q l =>
      rw [hm] at hk
      simp only [List.map_cons, List.cons.injEq, List.map_eq_nil_iff] at hk
      obtain ⟨hk, rfl⟩ := hk
      exact ⟨p, q, hp, rfl, refined_of_key hk⟩

/-- **C105.** `PDFPeakExtraction.fit`. -/
theorem c105_pdf_fit (N : Numerics K) (hS : Sorting N) (hU : Uniform S) {o o' : PObj K} {x y : List K} (hr : Ready o.vars.base x y)
    (h : PdfExtract.fit (codeWorld N) S D o = (.ok (), o')) :
    ∃ P c b before kept, From D o.vars P ∧ o'.extracted = some c ∧ List.Subperm before (o.heap.peaks P.ip) ∧ List.Forall₂ Refined before c.model ∧
      List.Perm kept (c.model.filter (fun p => !p.removable)) ∧
      List.Forall₂ Refined ((o.heap.peaks P.ip).filter (fun p => !p.removable)) kept ∧
      c.baseline = some b ∧ Refined (o.heap.base P.bl) b := by
  obtain ⟨-, P, eff, c, hf, -, hc, hout⟩ := (PdfExtract.c82_fit (c95_sane N hS) hU o o' _ x y hr h).2 rfl
  obtain ⟨b, hb1, hb2⟩ := hout.base
  obtain ⟨before, h1, h2⟩ := subperm_refined hout.peaks
  obtain ⟨kept, h3, h4⟩ := perm_refined hout.hard
  exact ⟨P, c, b, before, kept, hf, hc, h1, h2, h3, h4, hb1, refined_of_same hb2⟩

/-- **C105.** A function that leaves parameters in the internal format as they are (the baselines of the package do): a fixed parameter has exactly
the value it had. -/
theorem c105_exact {p q : Part K} (h : Refined p q) (hid : ∀ v, p.owner.transform v (some "internal") (some "internal") = .ok v) {i : ℕ}
    (hi : p.free[i]? = some false) : q.pars[i]? = p.pars[i]? := by
  have := h.held (fun _ => id) (fun v w i hw => by rw [hid] at hw; simp only [Except.ok.injEq] at hw; rw [hw]) i hi
  simpa using this

end

/-! ### The peak functions of the package -/

open Verif.Parts.Package

variable {nan : ℝ} {T : Table}

/-- What the functions of the package do not distinguish. -/
noncomputable def shown (mw : ℝ) : ℕ → ℝ → ℝ
  | 0 => id
  | 1 => Peaks.fwhmOf mw
  | 2 => fun v => |v|
  | _ => id

theorem normalised (nan mw : ℝ) {v w : List ℝ}
    (h : Function.transformParameters formats (rawTransform nan mw) v (some "internal") (some "internal") = .ok w) (i : ℕ) :
    (w[i]?).map (shown mw i) = (v[i]?).map (shown mw i) := by
  unfold Function.transformParameters at h
  simp only [resolved_out, resolved_in] at h
  rw [if_neg (not_not.2 in_formats.1), if_neg (not_not.2 in_formats.1)] at h
  unfold rawTransform at h
  split at h
  · rename_i a b c rest
    have e : Peaks.transform mw ⟨a, b, c⟩ "internal" "internal" = .ok (some ⟨a, Peaks.fold b, |c|⟩) := by
      simp [Peaks.transform, Peaks.transformWith, Peaks.toInternal, Peaks.fromInternal, Except.map]
    rw [e] at h
    simp only [Except.ok.injEq] at h
    subst h
    match i with
    | 0 => rfl
    | 1 => simp [shown, Peaks.fwhmOf, (Peaks.fold_spec b).2.2]
    | 2 => simp [shown]
    | i + 3 => simp [shown]
  · simp at h

/-- **C105.** A peak of the package, with or without ripples: position, width and area (format "pwa") that were held fixed are reported the
same. -/
theorem c105_reported {p q : Part ℝ} (h : Refined p q) {f : ℕ} (hf : p.owner.transform = (function nan f (T f)).transform)
    {x w a x' w' a' : ℝ} (hp : Reported (T f).2 p x w a) (hq : Reported (T f).2 q x' w' a') :
    (p.free[0]? = some false → x' = x) ∧ (p.free[1]? = some false → w' = w) ∧ (p.free[2]? = some false → a' = a) := by
  have hheld := h.held (shown (T f).2) (fun v w i hw => by rw [hf] at hw; exact normalised nan _ hw i)
  have key : ∀ (r : Part ℝ) (x w a : ℝ), r.owner.transform = (function nan f (T f)).transform → Reported (T f).2 r x w a →
      ∃ b c, r.pars = [x, b, c] ∧ w = Peaks.fwhmOf (T f).2 b ∧ a = |c| := by
    intro r x w a hr hrep
    have h1 := hrep.pwa
    rw [hr] at h1
    have hl : r.pars.length = 3 := by
      have := function_sized nan f (T f) _ _ _ _ h1
      simpa using this.symm
    obtain ⟨u, b, c, e⟩ := List.length_eq_three.1 hl
    rw [e, (transform_pwa nan f (T f) u b c).1] at h1
    simp only [Except.ok.injEq, List.cons.injEq, and_true] at h1
    obtain ⟨rfl, rfl, rfl⟩ := h1
    exact ⟨b, c, e, rfl, rfl⟩
  obtain ⟨b, c, e, rfl, rfl⟩ := key p x w a hf hp
  obtain ⟨b', c', e', rfl, rfl⟩ := key q x' w' a' (by rw [h.owner, hf]) hq
  rw [e, e'] at hheld
  exact ⟨fun h0 => by simpa [shown] using hheld 0 h0, fun h1 => by simpa [shown] using hheld 1 h1, fun h2 => by simpa [shown] using hheld 2 h2⟩

/-- **C105.** Together: every non-removable initial peak of the package is in the result of `extract_single` — each another one — with what was
held fixed of position, width and area. -/
theorem c105_package (hT : ∀ f, 0 < (T f).2) {N : Numerics ℝ} (hA : SortsKeys N.as) (hP : PicksOne N.pick) {H : Heap ℝ} {D : Defaults ℝ}
    (hN : H.peaks D.noPeaks = []) (hm : ∀ i, ∀ p ∈ H.peaks i, PackagePeak nan T p) {n depth : ℕ} {s : PX ℝ} {c : Cluster ℝ}
    {x y : List ℝ} (hr : Ready s x y) (h : extractSingle (codeWorld (packaged nan T N)) H D n depth s = .ok c) :
    ∃ kept, List.Perm kept (c.model.filter (fun p => !p.removable)) ∧
      List.Forall₂ (fun p q => q.owner = p.owner ∧ q.free = p.free ∧ ∃ f x w a x' w' a', Reported (T f).2 p x w a ∧ Reported (T f).2 q x' w' a' ∧
          (p.free[0]? = some false → x' = x) ∧ (p.free[1]? = some false → w' = w) ∧ (p.free[2]? = some false → a' = a))
        ((H.peaks (s.initialPeaks.getD D.noPeaks)).filter (fun p => !p.removable)) kept := by
  have hS := packaged_sorting (N := N) nan T hA hP
  have hperm := c70_hard_kept (c95_sane _ hS) (c95_estimates _).1 hN hr h
  have h0 : List.Forall₂ (fun (k : Extract.Key ℝ) (x : Part ℝ) => key x = k) ((c.model.filter (fun p => !p.removable)).map key)
      (c.model.filter (fun p => !p.removable)) := by
    generalize c.model.filter (fun p => !p.removable) = l
    induction l with
    | nil => exact .nil
    | cons x b ih => exact .cons rfl ih
  obtain ⟨kept, hz, hp⟩ := List.perm_comp_forall₂ hperm.symm h0
  refine ⟨kept, hp, ?_⟩
  have hall : ∀ p ∈ (H.peaks (s.initialPeaks.getD D.noPeaks)).filter (fun p => !p.removable), PackagePeak nan T p :=
    fun p hp => hm _ p (List.mem_filter.1 hp).1
  clear hperm h0 hp
  generalize (H.peaks (s.initialPeaks.getD D.noPeaks)).filter (fun p => !p.removable) = ps at hz hall ⊢
  induction ps generalizing kept with
  | nil => cases hz; exact .nil
  | cons p ps ih =>
    rw [List.map_cons] at hz
    cases hz with
    | @cons _ q _ qs h1 h2 =>
      refine .cons ?_ (ih qs h2 (fun p hp => hall p (List.mem_cons_of_mem _ hp)))
      have hpp := hall p (List.mem_cons_self)
      have href := refined_of_key h1
      obtain ⟨f, hf⟩ := hpp.format
      obtain ⟨x, w, a, hrp⟩ := reported_of (hT f) hf hpp.names hpp.pars
      have hs : SamePeak q p := (samePeak_iff q p).2 h1
      have hq : q.pars.length = 3 := by
        have := (hs.2.2.2.2.1.2 (fun _ => ⟨by rw [hpp.pars, hpp.npars], hpp.floats⟩)
          (fun v i o r => by rw [hs.1, hf]; exact function_sized nan f (T f) v i o r)).1
        rw [this, hs.1, hpp.npars]
      obtain ⟨x', w', a', hrq⟩ := reported_of (hT f) (by rw [hs.1, hf]) (by rw [hs.1, hpp.names]) hq
      exact ⟨hs.1, hs.2.1, f, x, w, a, x', w', a', hrp, hrq, c105_reported href hf hrp hrq⟩

/-- **C105.** A fixed value need not be stored as it was: a fixed area of -4 is afterwards one of 4 (and reported as 4 both times). -/
theorem c105_sign (nan : ℝ) : (function nan 5 (exTable 5)).transform [3, 0, -4] (some "internal") (some "internal") = .ok [3, Peaks.fold 0, 4] := by
  rw [function_transform]
  unfold Function.transformParameters
  simp only [resolved_out, resolved_in]
  rw [if_neg (not_not.2 in_formats.1), if_neg (not_not.2 in_formats.1)]
  have e : Peaks.transform (exTable 5).2 ⟨3, 0, -4⟩ "internal" "internal" = .ok (some ⟨3, Peaks.fold 0, 4⟩) := by
    simp [Peaks.transform, Peaks.transformWith, Peaks.toInternal, Peaks.fromInternal, Except.map]
  unfold rawTransform
  simp only [e]

/-! ### Instances -/

/-- An initial peak that may not be removed; its width is held fixed. -/
noncomputable def hardPeak : Part ℝ := { exPeak with removable := false }

noncomputable def hardHeap : Heap ℝ := { exHeap with peaks := fun i => if i = 1 then [hardPeak] else [] }

theorem hardHeap_peaks (i : ℕ) (p : Part ℝ) (hp : p ∈ hardHeap.peaks i) : PackagePeak 0 exTable p := by
  simp only [hardHeap] at hp
  split at hp
  · rw [List.mem_singleton.1 hp]; exact ⟨rfl, rfl, ⟨5, rfl⟩, rfl, rfl⟩
  · cases hp

/-- Its width is √2, and so it is in the result. -/
example {c : Cluster ℝ} (h : extractSingle (codeWorld (packaged 0 exTable exNumerics)) hardHeap exDefs 3 1 exVars = .ok c) :
    ∃ q ∈ c.model, ∃ x w a w0, Reported 2 q x w a ∧ Reported 2 hardPeak 3 w0 4 ∧ w = w0 := by
  obtain ⟨kept, h1, h2⟩ := c105_package exTable_pos mergeAs_sorts ex_picks rfl hardHeap_peaks exVars_ready h
  have e : (hardHeap.peaks (exVars.initialPeaks.getD exDefs.noPeaks)).filter (fun p => !p.removable) = [hardPeak] := rfl
  rw [e] at h2
  cases h2 with
  | @cons _ q _ qs k1 k2 =>
    cases k2
    have hq : q ∈ c.model := (List.mem_filter.1 (h1.subset (List.mem_singleton.2 rfl))).1
    obtain ⟨-, -, f, x, w, a, x', w', a', r1, r2, -, hw, -⟩ := k1
    have e2 : (exTable f).2 = 2 := rfl
    rw [e2] at r1 r2
    have r3 : x = 3 ∧ a = 4 := by
      have := r1.pwa
      have e3 : hardPeak.owner.transform hardPeak.pars = (function 0 5 (exTable 5)).transform [3, 0, -4] := rfl
      rw [e3, (transform_pwa 0 5 (exTable 5) 3 0 (-4)).1] at this
      simp only [Except.ok.injEq, List.cons.injEq, and_true] at this
      refine ⟨this.1.symm, ?_⟩
      rw [← this.2.2]
      norm_num
    rw [r3.1, r3.2] at r1
    exact ⟨q, hq, x', w', a', w, r2, r1, hw rfl⟩

example {c : Cluster ℝ} (h : extractSingle (codeWorld (packaged 0 exTable exNumerics)) hardHeap exDefs 3 1 exVars = .ok c) :=
  c105_extract (H := hardHeap) (D := exDefs) (packaged 0 exTable exNumerics) (packaged_sorting 0 exTable mergeAs_sorts ex_picks) rfl exVars_ready h

example {o' : Obj ℝ} (h : fitSingle (codeWorld (packaged 0 exTable exNumerics)) exDefs ⟨exVars, hardHeap, none⟩ = (.ok (), o')) :=
  c105_fit_single (packaged 0 exTable exNumerics) (packaged_sorting 0 exTable mergeAs_sorts ex_picks) (o := ⟨exVars, hardHeap, none⟩) exVars_ready h

/-- A baseline `c` with `c = 7` held fixed. -/
example {q : Part ℚ} (h : Refined ⟨⟨0, 1, [("c", 0)], fun v r => r.map (fun _ => v.getD 0 0), fun _ _ _ => [], fun v _ _ => .ok v⟩, [7], [false], false, true, false⟩ q) :
    q.pars[0]? = some 7 := c105_exact h (fun _ => rfl) (i := 0) rfl

noncomputable def hardPObj : PObj ℝ := { exPObj with heap := hardHeap }

example {o' : PObj ℝ} (h : PdfExtract.extract (codeWorld (packaged 0 exTable exNumerics)) (realSampler (rippled (fun _ i => i + 1)) (fun _ => false)) exDefs 5
    hardPObj = some (.ok (), o')) :=
  c105_pdf_extract (packaged 0 exTable exNumerics) (packaged_sorting 0 exTable mergeAs_sorts ex_picks)
    (realSampler_uniform (rippled (fun _ i => i + 1)) (fun _ => false)) (rippled_ripples (fun _ => false) (by intro q i; simp)) (o := hardPObj) rfl exVars_ready
    (by intro v hv; simp only [hardPObj, exPObj, Option.some.injEq] at hv; rw [← hv]; norm_num) h

example {o' : PObj ℝ} (h : PdfExtract.fit (codeWorld (packaged 0 exTable exNumerics)) (realSampler (rippled (fun _ i => i + 1)) (fun _ => false)) exDefs
    hardPObj = (.ok (), o')) :=
  c105_pdf_fit (packaged 0 exTable exNumerics) (packaged_sorting 0 exTable mergeAs_sorts ex_picks)
    (realSampler_uniform (rippled (fun _ i => i + 1)) (fun _ => false)) (o := hardPObj) exVars_ready h

end Verif.Parts.Held
