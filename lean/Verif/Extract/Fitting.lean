import Verif.Extract.EstimateModel
import Verif.Extract.Example

/-!
# `fit_single` (C72)
-/

set_option linter.unusedSectionVars false

namespace Verif.Parts.Extract

open Verif.Py Verif.PeakList Verif.Parts.ModelCluster Verif.Extraction

variable {K : Type} [Field K] [LinearOrder K] [IsStrictOrderedRing K]
variable {W : World K} {D : Defaults K}

/-- What `fit_single` does once the variables are complete: the cluster it makes and how it ends. -/
theorem fitSingle_ok {o o' : Obj K} (h : fitSingle W D o = (.ok (), o')) :
    ∃ t J ip bl c c', defaultvars D o.vars = (.ok (), t) ∧ jobOf o.heap t = .ok J ∧ t.initialPeaks = some ip ∧
      t.baseline = some (.inst bl) ∧ newCluster W J J.ip (some J.bl) J.x J.y J.dy none = .ok c ∧
      fitted (final W) { fitbaseline := true, estimate := false } c = .ok c' ∧
      o' = ⟨t, touched W o.heap ip bl { fitbaseline := true, estimate := false } c, some c'⟩ := by
  unfold fitSingle at h
  split at h
  · simp at h
  · rename_i t hdv
    simp only at h
    split at h
    · rename_i J ip bl hJ hip hbl
      cases hc : newCluster W J J.ip (some J.bl) J.x J.y J.dy none with
      | error e => rw [hc] at h; simp at h
      | ok c =>
        rw [hc] at h
        simp only at h
        cases hf : fitted (final W) { fitbaseline := true, estimate := false } c with
        | error e => rw [hf] at h; simp at h
        | ok c' =>
          rw [hf] at h
          simp only [Prod.mk.injEq, true_and] at h
          exact ⟨t, J, ip, bl, c, c', hdv, hJ, hip, hbl, hc, hf, h.symm⟩
    · simp at h
    · simp at h

/-- **C72.** When `fit_single` returns, the extracted cluster covers exactly the data in the range, its peaks are
initial peaks up to parameter values (none twice, no non-removable one missing) and its baseline is the baseline up to
parameter values.  If it raises, there is no extracted cluster. -/
theorem c72_fit_single (hS : Sane W) {o o' : Obj K} {x y : List K} (hr : Ready o.vars x y) {r : Res Unit}
    (h : fitSingle W D o = (r, o')) :
    (∀ e, r = .error e → o'.extracted = none) ∧
    (r = .ok () → ∃ (t : PX K) (c : Cluster K) (ip : ℕ), defaultvars D o.vars = (.ok (), t) ∧ o'.vars = t ∧
      o'.extracted = some c ∧ Result D o.heap o.vars t x y 1 c ∧ t.initialPeaks = some ip ∧
      (c.model.map key).Subperm ((o.heap.peaks ip).map key) ∧
      ((c.model.filter (fun p => !p.removable)).map key).Perm
        (((o.heap.peaks ip).filter (fun p => !p.removable)).map key)) := by
  refine ⟨?_, ?_⟩
  · rintro e rfl
    unfold fitSingle at h
    split at h
    · simp only [Prod.mk.injEq] at h; rw [← h.2]
    · simp only at h
      split at h
      · split at h
        · simp only [Prod.mk.injEq] at h; rw [← h.2]
        · split at h
          · simp only [Prod.mk.injEq] at h; rw [← h.2]
          · simp at h
      · simp only [Prod.mk.injEq] at h; rw [← h.2]
      · simp only [Prod.mk.injEq] at h; rw [← h.2]
  · rintro rfl
    obtain ⟨t, J, ip, bl, c, c', hdv, hJ, hip, hbl, hc, hf, rfl⟩ := fitSingle_ok h
    have hne : J.x ≠ [] := by
      intro h0
      unfold newCluster changeSlice updateNever at hc
      simp [h0, excess, Slice.get, getSlice, maxNeg] at hc
    obtain ⟨hof, hsl, hm, -⟩ := newCluster_of (Q := fun _ => True) (fun _ _ => trivial) hc
    obtain ⟨hsame, hkept, hbase⟩ := fit_data (hS.ctame c) { fitbaseline := true, estimate := false } c
    have hc' : c' = (ModelCluster.fit ((final W).env c) { fitbaseline := true, estimate := false } c).2.1 := by
      unfold fitted at hf
      split at hf
      · simp at hf
      · rename_i heq
        rw [heq]
        simpa using hf.symm
    rw [← hc'] at hsame hkept hbase
    have hK : Kept c.model c'.model := by
      rcases hkept with hk | ⟨-, hc, -⟩
      · exact hk
      · simp at hc
    rw [hm] at hK
    obtain ⟨x0, x1, e, hx0, hx1, he, d1, d2, d3⟩ := job_range hr hdv hJ hne
    obtain ⟨x', y', e', a, b, bl', ip', cres, em, pf, lo, hi, h1, h2, h3, h4, h5, h6, h7, h8, h9, h10, rfl⟩ := jobOf_ok hJ
    rw [hip, Option.some.injEq] at h6
    rw [hbl] at h5
    simp only [Option.some.injEq, Base.inst.injEq] at h5
    subst h5 h6
    refine ⟨t, c', ip, hdv, rfl, rfl, ?_, hip, hK.sub, hK.hard⟩
    refine ⟨⟨x0, x1, e, hx0, hx1, he, ?_, ?_, ?_⟩, ?_, ?_, ⟨pf, h9, ?_⟩, ?_⟩
    · rw [hsame.r, hof.r, ← d1]
    · rw [hsame.y, hof.y, ← d2]
    · rw [hsame.err, hof.err, ← d3]
    · refine ⟨_, hsame.slice.trans hsl, ?_, by rw [hsame.r, hof.r]; exact hne⟩
      rw [hsame.r, hof.r]
      generalize getSlice x' (some (lo, hi.toNat)) = l
      simp [Slice.get, getSlice, bounds]
    · rw [hsame.method, hof.method]; exact h8
    · rw [hsame.funcs]; exact hof.funcs
    · rw [hof.bl] at hbase
      rcases hbase with hb | ⟨ht, p, p', hp, hp', hfr⟩
      · exact ⟨bl, o.heap.base bl, hbl, hb, ⟨rfl, rfl, rfl, rfl, Iff.rfl, rfl⟩, fun _ => rfl⟩
      · simp only [Option.some.injEq] at hp
        refine ⟨bl, p', hbl, hp', ?_, fun hd => absurd rfl hd⟩
        rw [hp]; exact ⟨hfr.owner, hfr.free, hfr.removable, hfr.static, iff_of_eq hfr.shaped, hfr.fixed⟩

/-- The options of the fit of `fit_single`. -/
def fitOpts : Opts := { fitbaseline := true, estimate := false }

/-- **C72.** The fit works on the very objects the variables refer to: of all peak lists only that behind
`initial_peaks`, of all baselines only that behind `baseline` can change. -/
theorem c72_others_untouched {o o' : Obj K} {r : Res Unit} {t : PX K} (hdv : defaultvars D o.vars = (.ok (), t))
    (h : fitSingle W D o = (r, o')) :
    o'.vars = t ∧ o'.heap.funcs = o.heap.funcs ∧
    (∀ j, t.initialPeaks ≠ some j → o'.heap.peaks j = o.heap.peaks j) ∧
    (∀ j, t.baseline ≠ some (.inst j) → o'.heap.base j = o.heap.base j) := by
  unfold fitSingle at h
  rw [hdv] at h
  simp only at h
  split at h
  · rename_i J ip bl hJ hip hbl
    have key : ∀ c, (touched W o.heap ip bl { fitbaseline := true, estimate := false } c).funcs = o.heap.funcs ∧
        (∀ j, t.initialPeaks ≠ some j →
          (touched W o.heap ip bl { fitbaseline := true, estimate := false } c).peaks j = o.heap.peaks j) ∧
        (∀ j, t.baseline ≠ some (.inst j) →
          (touched W o.heap ip bl { fitbaseline := true, estimate := false } c).base j = o.heap.base j) := by
      intro c
      refine ⟨rfl, ?_, ?_⟩
      · intro j hj
        have : j ≠ ip := by rintro rfl; exact hj hip
        simp [touched, Function.update_of_ne this]
      · intro j hj
        have : j ≠ bl := by rintro rfl; exact hj hbl
        unfold touched
        simp only
        split
        · rfl
        · simp [Function.update_of_ne this]
    split at h
    · simp only [Prod.mk.injEq] at h; rw [← h.2]; exact ⟨rfl, rfl, fun _ _ => rfl, fun _ _ => rfl⟩
    · rename_i c hc
      split at h
      · simp only [Prod.mk.injEq] at h; rw [← h.2]; exact ⟨rfl, key c⟩
      · simp only [Prod.mk.injEq] at h; rw [← h.2]; exact ⟨rfl, key c⟩
  · simp only [Prod.mk.injEq] at h; rw [← h.2]; exact ⟨rfl, rfl, fun _ _ => rfl, fun _ _ => rfl⟩
  · simp only [Prod.mk.injEq] at h; rw [← h.2]; exact ⟨rfl, rfl, fun _ _ => rfl, fun _ _ => rfl⟩

/-- **C72.** The extracted model is of no worse quality than the initial peaks with the baseline, by the evaluator of
the variables (`c0` is the cluster that is fitted, over the initial peaks). -/
theorem c72_not_worse {o o' : Obj K} (h : fitSingle W D o = (.ok (), o')) {t : PX K} {J : Job K} {c0 : Cluster K}
    (hdv : defaultvars D o.vars = (.ok (), t)) (hJ : jobOf o.heap t = .ok J)
    (h0 : newCluster W J J.ip (some J.bl) J.x J.y J.dy none = .ok c0) (hC : Comparable (W.env c0)) :
    ∃ c, o'.extracted = some c ∧
      NotWorse (W.env c0) ((W.env c0).quality c.model c.baseline) J.ip (some J.bl) ∧
      (c0.neverFit = true ∨ J.ip = [] → c.model = J.ip ∧ c.baseline = some J.bl) := by
  have hC : Comparable ((final W).env c0) := hC
  show ∃ c : Cluster K, _ ∧ NotWorse ((final W).env c0) (((final W).env c0).quality c.model c.baseline) J.ip (some J.bl) ∧ _
  obtain ⟨t', J', ip, bl, c, c', hdv', hJ', hip, hbl, hc, hf, rfl⟩ := fitSingle_ok h
  rw [hdv, Prod.mk.injEq] at hdv'
  obtain ⟨-, rfl⟩ := hdv'
  rw [hJ, Except.ok.injEq] at hJ'
  subst hJ'
  rw [h0, Except.ok.injEq] at hc
  subst hc
  obtain ⟨hof, hsl, hm, -⟩ := newCluster_of (Q := fun _ => True) (fun _ _ => trivial) h0
  have hb : c0.baseline = some J.bl := hof.bl
  have refl : NotWorse ((final W).env c0) (((final W).env c0).quality J.ip (some J.bl)) J.ip (some J.bl) := by
    obtain ⟨m, hi, hall⟩ := hC
    obtain ⟨s, -, -, hs⟩ := hall J.ip (some J.bl)
    exact ⟨s, s, hs, hs, by split <;> exact le_refl _⟩
  have hc' : c' = (ModelCluster.fit ((final W).env c0) fitOpts c0).2.1 ∧ ∃ q, (ModelCluster.fit ((final W).env c0) fitOpts c0).1 = .ok q := by
    unfold fitted at hf
    split at hf
    · simp at hf
    · rename_i q _ _ heq
      unfold fitOpts
      rw [heq]
      exact ⟨by simpa using hf.symm, q, rfl⟩
  obtain ⟨rfl, q, hq⟩ := hc'
  have same : c0.neverFit = true ∨ J.ip = [] → (ModelCluster.fit ((final W).env c0) fitOpts c0).2.1 = c0 := by
    intro hor
    unfold ModelCluster.fit
    by_cases hn : c0.neverFit = true
    · rw [if_pos hn]
    · rw [if_neg hn]
      have hm0 : c0.model = [] := by rw [hm]; exact hor.resolve_left hn
      rw [if_pos hm0]
      simp [fitOpts]
  refine ⟨_, rfl, ?_, ?_⟩
  · by_cases hor : c0.neverFit = true ∨ J.ip = []
    · rw [same hor, hm, hb]; exact refl
    · have hne : c0.model ≠ [] := by rw [hm]; exact fun hc => hor (Or.inr hc)
      obtain ⟨-, h1, h2, -⟩ := c27_fit ((final W).env c0) hC fitOpts c0 hne
      cases q with
      | none =>
        obtain ⟨e1, e2⟩ := h2 hq
        rw [e1, e2, hm, hb]; exact refl
      | some q =>
        obtain ⟨e1, e2, -⟩ := h1 q hq
        rw [← e1, ← hm, ← hb]; exact e2
  · intro hor
    rw [same hor]
    exact ⟨hm, hb⟩

/-- **C72.** With nothing to fit (no initial peaks, or no point of the range above its uncertainty) no object changes
and the extracted peaks are the initial ones. -/
theorem c72_nothing_to_fit {o o' : Obj K} (h : fitSingle W D o = (.ok (), o')) {t : PX K} {J : Job K} {c0 : Cluster K}
    (hdv : defaultvars D o.vars = (.ok (), t)) (hJ : jobOf o.heap t = .ok J)
    (h0 : newCluster W J J.ip (some J.bl) J.x J.y J.dy none = .ok c0) (hno : c0.neverFit = true ∨ J.ip = []) :
    o' = ⟨t, o.heap, some c0⟩ := by
  obtain ⟨t', J', ip, bl, c, c', hdv', hJ', hip, hbl, hc, hf, rfl⟩ := fitSingle_ok h
  rw [hdv, Prod.mk.injEq] at hdv'
  obtain ⟨-, rfl⟩ := hdv'
  rw [hJ, Except.ok.injEq] at hJ'
  subst hJ'
  rw [h0, Except.ok.injEq] at hc
  subst hc
  obtain ⟨hof, hsl, hm, -⟩ := newCluster_of (Q := fun _ => True) (fun _ _ => trivial) h0
  obtain ⟨x', y', e', a, b, bl', ip', cres, em, pf, lo, hi, h1, h2, h3, h4, h5, h6, h7, h8, h9, h10, rfl⟩ := jobOf_ok hJ
  rw [hip, Option.some.injEq] at h6
  subst h6
  have hfit : ModelCluster.fit ((final W).env c0) { fitbaseline := true, estimate := false } c0 = (.ok none, c0, c0.model) := by
    unfold ModelCluster.fit
    by_cases hn : c0.neverFit = true
    · rw [if_pos hn]
    · rw [if_neg hn, if_pos (by rw [hm]; exact hno.resolve_left hn)]
      simp
  have hc' : c' = c0 := by
    unfold fitted at hf
    rw [hfit] at hf
    simpa using hf.symm
  subst hc'
  have hor : c'.neverFit = true ∨ c'.model = [] := by rw [hm]; exact hno
  have ht : touched W o.heap ip bl { fitbaseline := true, estimate := false } c' = o.heap := by
    unfold touched
    rw [hfit, if_pos hor, hm, Function.update_eq_self]
  rw [ht]

/-- **C72 (finding).** If the optimiser gives up (SrMiseFitError), `fit_single` returns normally and the extracted
cluster has the peaks as they were, but the objects behind `initial_peaks` and `baseline` are left with the parameters
the optimiser stopped at (`parts` are the peaks and the baseline as `leastsq` left them). -/
theorem c72_failed_fit_moves_initial {o : Obj K} {t : PX K} {J : Job K} {c0 : Cluster K} {ip bl : ℕ}
    (hdv : defaultvars D o.vars = (.ok (), t)) (hJ : jobOf o.heap t = .ok J) (hip : t.initialPeaks = some ip)
    (hbl : t.baseline = some (.inst bl)) (h0 : newCluster W J J.ip (some J.bl) J.x J.y J.dy none = .ok c0)
    (hn : c0.neverFit = false) (hne : J.ip ≠ []) (hfree : 0 < J.bl.npars false) {parts : List (Part K)} {b : Part K}
    (hl : ((final W).env c0).lsq (J.ip ++ [J.bl]) = (.error .fit, parts ++ [b])) :
    ∃ o' c, fitSingle W D o = (.ok (), o') ∧ o'.extracted = some c ∧ c.model = J.ip ∧ c.baseline = some J.bl ∧
      o'.heap.peaks ip = parts ∧ o'.heap.base bl = b := by
  obtain ⟨hof, hsl, hm, -⟩ := newCluster_of (Q := fun _ => True) (fun _ _ => trivial) h0
  have hb : c0.baseline = some J.bl := hof.bl
  have hfb : fitBaseline { fitbaseline := true, estimate := false } c0 = some J.bl := by
    simp [fitBaseline, hb, Nat.pos_iff_ne_zero.1 hfree]
  have hla : launch ((final W).env c0) { fitbaseline := true, estimate := false } c0 = (.error .fit, parts, some b) := by
    unfold launch
    rw [hfb]
    simp only [hm, hl]
    simp
  have hfit : ModelCluster.fit ((final W).env c0) { fitbaseline := true, estimate := false } c0 =
      (.ok none, { c0 with lastFit := c0.size }, parts) := by
    unfold ModelCluster.fit fitCore
    rw [hn, hm, if_neg hne, hla]
    simp
  have hfd : fitted (final W) { fitbaseline := true, estimate := false } c0 = .ok { c0 with lastFit := c0.size } := by
    unfold fitted
    rw [hfit]
  refine ⟨⟨t, touched W o.heap ip bl { fitbaseline := true, estimate := false } c0, some { c0 with lastFit := c0.size }⟩,
    { c0 with lastFit := c0.size }, ?_, rfl, hm, hb, ?_, ?_⟩
  · unfold fitSingle
    simp only [hdv, hJ, hip, hbl, h0, hfd]
  · simp [touched, hfit]
  · simp [touched, hla, hn, hm, hne]

/-- A world whose optimiser moves every parameter by one and then gives up, or (`ok`) is content. -/
def pushWorld (ok : Bool) : World ℚ :=
  { dotWorld with env := fun c => { dotEnv c with lsq := fun ps => (if ok then .ok () else .error .fit, ps.map (fun p => { p with pars := p.pars.map (· + 1) })) }
                  covLsq := fun _ ps => (if ok then .ok () else .error .fit, ps.map (fun p => { p with pars := p.pars.map (· + 1) })) }

/-- Objects with a baseline of one free parameter. -/
def pushHeap : Heap ℚ :=
  { dotHeap with base := fun _ => ⟨⟨0, 1, [("height", 0)], fun _ _ => [], fun _ _ _ => [], fun p _ _ => .ok p⟩, [0], [true], false, true, false⟩ }

/-- How it ended, the extracted peaks and baseline, the initial peaks and the baseline afterwards. -/
def afterFit (W : World ℚ) (H : Heap ℚ) : Option ((List (List ℚ) × Option (List ℚ)) × List (List ℚ) × List ℚ) :=
  match fitSingle W dotDef ⟨dotVars (some 1) none, H, none⟩ with
  | (.ok _, o) => some ((((o.extracted.map (fun c => c.model.map Part.pars)).getD []), (o.extracted.bind (fun c => c.baseline)).map Part.pars), (o.heap.peaks 1).map Part.pars, (o.heap.base 0).pars)
  | (.error _, _) => none

/-- Instances of C72: a fit that changes nothing; an optimiser that gives up; one that is content with a worse model.
In the last two cases the initial peak has moved from 2 to 3 and the baseline from 0 to 1, while the extracted ones
have not. -/
example : afterFit dotWorld pushHeap = some (([[2, 5]], some [0]), [[2, 5]], [0]) ∧
    afterFit (pushWorld false) pushHeap = some (([[2, 5]], some [0]), [[3, 6]], [1]) ∧
    afterFit (pushWorld true) pushHeap = some (([[2, 5]], some [0]), [[3, 6]], [1]) := by
  refine ⟨?_, ?_, ?_⟩ <;> decide +kernel

end Verif.Parts.Extract
