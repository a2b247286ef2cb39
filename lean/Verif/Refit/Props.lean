import Verif.Refit.Lemmas

/-!
# Property C114: one fit, and the next
-/

set_option linter.unusedSectionVars false

namespace Verif.Parts.Refit

open Verif.Py Verif.PeakList Verif.Extraction Verif.Pdf Verif.Parts.ModelCluster Verif.Parts.Extract Verif.Parts.PdfExtract

variable {K : Type} [Field K] [LinearOrder K] [IsStrictOrderedRing K]
variable {W : World K} {S : Sampler K} {D : Defaults K}

/-- How the fit of a cluster with a baseline ends, and what it leaves in the list that was its model. -/
theorem fit_cases {E : Env K} (hT : Tame E) {c : Cluster K} {b : Part K} (hb : c.baseline = some b)
    {q : Option (Evaluator.Ev K)} (h : (ModelCluster.fit E { fitbaseline := true, estimate := false } c).1 = .ok q) :
    ((ModelCluster.fit E { fitbaseline := true, estimate := false } c).2.1.model = c.model ∧
      (ModelCluster.fit E { fitbaseline := true, estimate := false } c).2.1.baseline = c.baseline) ∨
    (¬ (c.neverFit = true ∨ c.model = []) ∧ ∃ b', (launch E { fitbaseline := true, estimate := false } c).2.2 = some b' ∧
      (ModelCluster.fit E { fitbaseline := true, estimate := false } c).2.1.baseline = some b' ∧
      (ModelCluster.fit E { fitbaseline := true, estimate := false } c).2.1.model =
        E.clean (sort E.as false pos (launch E { fitbaseline := true, estimate := false } c).2.1) ∧
      (0 < b.npars false → (ModelCluster.fit E { fitbaseline := true, estimate := false } c).2.2 =
        (launch E { fitbaseline := true, estimate := false } c).2.1) ∧
      (b.npars false = 0 → (ModelCluster.fit E { fitbaseline := true, estimate := false } c).2.2 =
        (ModelCluster.fit E { fitbaseline := true, estimate := false } c).2.1.model)) := by
  have hfb : fitBaseline { fitbaseline := true, estimate := false } c = if 0 < b.npars false then some b else none := by
    unfold fitBaseline; rw [hb]; simp
  have hlast : ∃ b', (launch E { fitbaseline := true, estimate := false } c).2.2 = some b' := by
    unfold launch
    rw [hfb]
    split
    · rename_i b0 h0
      have hl := (hT.frame (c.model ++ [b0])).length_eq
      have : (E.lsq (c.model ++ [b0])).2 ≠ [] := by
        intro hn; rw [hn] at hl; simp at hl
      exact ⟨_, List.getLast?_eq_some_getLast this⟩
    · exact ⟨b, hb⟩
  revert h
  unfold ModelCluster.fit
  by_cases hn : c.neverFit = true
  · rw [if_pos hn]; exact fun _ => .inl ⟨rfl, rfl⟩
  rw [if_neg hn]
  by_cases h0 : c.model = []
  · rw [if_pos h0]; exact fun _ => .inl ⟨rfl, rfl⟩
  rw [if_neg h0]
  intro h
  unfold fitCore at h ⊢
  obtain ⟨b', hb'⟩ := hlast
  generalize hla : launch E { fitbaseline := true, estimate := false } c = la at h hb' ⊢
  obtain ⟨r, m0, bl⟩ := la
  simp only at hb'
  subst hb'
  cases r with
  | error e =>
    cases e with
    | fit => exact .inl ⟨rfl, rfl⟩
    | _ => simp at h
  | ok u =>
    cases u
    simp only at h ⊢
    cases hlt : Evaluator.lt (E.quality (E.clean (sort E.as false pos m0)) (some b')) (E.quality c.model c.baseline) with
    | error e => rw [hlt] at h; simp at h
    | ok v =>
      rw [hlt] at h
      cases v with
      | true => exact .inl ⟨rfl, rfl⟩
      | false =>
        simp only [Bool.false_eq_true, false_and, if_false] at h ⊢
        refine .inr ⟨fun hor => hor.elim hn h0, b', by trivial, by trivial, by trivial, fun hp => ?_, fun hz => ?_⟩
        · rw [hfb, if_pos hp]
        · rw [hfb, if_neg (by omega)]

/-- The fit that ended in `o'` was taken: the baseline object holds the extracted baseline, and the list of initial peaks the extracted peaks:
all of them, of those that are not removable no others, and if no parameter of the baseline is free exactly these. -/
structure Taken (o o' : PObj K) : Prop where
  holds : ∃ c ip bl, o'.extracted = some c ∧ o'.vars.base.initialPeaks = some ip ∧ o'.vars.base.baseline = some (.inst bl) ∧
    c.baseline = some (o'.heap.base bl) ∧ c.model.Subperm (o'.heap.peaks ip) ∧
    (c.model.filter (fun p => !p.removable)).Perm ((o'.heap.peaks ip).filter (fun p => !p.removable)) ∧
    ((o.heap.base bl).npars false = 0 → c.model = o'.heap.peaks ip ∧ o'.heap.base bl = o.heap.base bl)

theorem run_after (hS : Sane W) {o o' : PObj K} {s : PPX K} {P : Par K} {g : Grid K} {c c' : Cluster K}
    (h : Run W S D o s P g c c' o') : AsBefore o o' ∨ Taken o o' := by
  have hb := begun_of h.made
  obtain ⟨hc, q, hq⟩ := fitted_eq h.fits
  have hh := h.has
  have hT := hS.ctame c
  rcases fit_cases hT hb.base hq with ⟨e1, e2⟩ | ⟨hn, b', e0, e1, e2, e3, e4⟩
  · left
    refine ⟨c', P.ip, P.bl, by rw [h.after], by rw [h.after]; exact hh.ip, by rw [h.after]; exact hh.bl, ?_, ?_⟩
    · rw [hc, e1, hb.model]
    · rw [hc, e2, hb.base]
  · right
    rw [← hc] at e1 e2 e4
    have hbase : o'.heap.base P.bl = b' := by
      rw [h.after]
      show (touched W o.heap P.ip P.bl _ c).base P.bl = b'
      unfold touched
      simp only
      rw [if_neg hn, Function.update_self, e0]
      rfl
    have hlist : o'.heap.peaks P.ip = (ModelCluster.fit ((final W).env c) { fitbaseline := true, estimate := false } c).2.2 := by
      rw [h.after]
      show (touched W o.heap P.ip P.bl _ c).peaks P.ip = _
      unfold touched
      simp only
      rw [Function.update_self]
    have hsort := (c37_sort hT.sorts false pos (launch ((final W).env c) { fitbaseline := true, estimate := false } c).2.1).1
    refine ⟨c', P.ip, P.bl, by rw [h.after], by rw [h.after]; exact hh.ip, by rw [h.after]; exact hh.bl, ?_, ?_, ?_, ?_⟩
    · rw [e1, hbase]
    · rw [hlist]
      by_cases hz : (o.heap.base P.bl).npars false = 0
      · rw [e4 hz]
      · rw [e3 (by omega), e2]
        exact (hT.clean _).subperm.trans hsort.subperm
    · rw [hlist]
      by_cases hz : (o.heap.base P.bl).npars false = 0
      · rw [e4 hz]
      · rw [e3 (by omega), e2, hT.hard]
        exact hsort.filter _
    · intro hz
      refine ⟨by rw [hlist, e4 hz], ?_⟩
      rw [hbase]
      have hla : (launch ((final W).env c) { fitbaseline := true, estimate := false } c).2.2 = c.baseline := by
        unfold launch fitBaseline
        rw [hb.base]
        simp [hz]
      rw [hla, hb.base, Option.some.injEq] at e0
      exact e0.symm

/-- **C114.** After a fit that ends normally, either what was extracted are the peaks and the baseline as they were before (the fit was not
taken), or the baseline object holds the extracted baseline, and the list of initial peaks the extracted peaks: all of them, of
those that are not removable no others, and if no parameter of the baseline is free exactly these. -/
theorem c114_after (hS : Sane W) (hU : Uniform S) {o o' : PObj K} {x y : List K} (hr : Ready o.vars.base x y)
    (h : PdfExtract.fit W S D o = (.ok (), o')) : AsBefore o o' ∨ Taken o o' := by
  obtain ⟨s, P, g, c, c', -, hrun⟩ := run_first hU hr h
  exact run_after hS hrun

/-- **C114.** If the fit was taken and no peak was dropped from the result, the objects hold the result. -/
theorem c114_holds {o o' : PObj K} (h : Taken o o') :
    ∃ c ip, o'.extracted = some c ∧ o'.vars.base.initialPeaks = some ip ∧
      ((o'.heap.peaks ip).length ≤ c.model.length → Holds o') := by
  obtain ⟨c, ip, bl, e1, e2, e3, e4, e5, e6, e7⟩ := h.holds
  exact ⟨c, ip, e1, e2, fun hl => ⟨c, ip, bl, e1, e2, e3, e5.perm_of_length_le hl, e4⟩⟩

/-- **C114.** A taken fit with a baseline without free parameters leaves the result in the objects. -/
theorem c114_holds_fixed {o o' : PObj K} (h : Taken o o')
    (hz : ∀ bl, o'.vars.base.baseline = some (.inst bl) → (o.heap.base bl).npars false = 0) : Holds o' := by
  obtain ⟨c, ip, bl, e1, e2, e3, e4, e5, e6, e7⟩ := h.holds
  exact ⟨c, ip, bl, e1, e2, e3, by rw [(e7 (hz bl e3)).1], e4⟩

/-- If the objects hold the result of a fit, fitting again does not make the result worse. -/
theorem run_again {N : Numerics K} (hS : Sorting N) {o o1 o2 : PObj K} {s : PPX K} {P : Par K} {g : Grid K} {c c' : Cluster K}
    (hd : Data g.1 g.2.1 g.2.2) (h1 : Run (codeWorld N) S D o s P g c c' o1) (hh : Holds o1)
    (h2 : PdfExtract.fit (codeWorld N) S D o1 = (.ok (), o2)) :
    ∃ d d', Run (codeWorld N) S D o1 s P g d d' o2 ∧ SameGrid c' d' ∧
      cost N d' d'.model d'.baseline ≤ cost N c' c'.model c'.baseline := by
  obtain ⟨d, d', hrun⟩ := run_next hd h1 h2
  have g1 := h1.same (c95_sane N hS)
  have g2 := hrun.same (c95_sane N hS)
  have g0 := (begun_of h1.made).grid (begun_of hrun.made)
  have g12 : SameGrid c' d' := ⟨by rw [g2.r, g0.r, g1.r], by rw [g2.y, g0.y, g1.y], by rw [g2.err, g0.err, g1.err],
    by rw [g2.slice, g0.slice, g1.slice], by rw [g2.method, g0.method, g1.method]⟩
  refine ⟨d, d', hrun, g12, ?_⟩
  have hle := run_not_worse hd hrun
  rw [← cost_same N g2, ← cost_same N g2] at hle
  obtain ⟨c0, ip, bl, e1, e2, e3, e4, e5⟩ := hh
  rw [h1.after] at e1 e2 e3
  simp only [Option.some.injEq] at e1
  subst e1
  have hhas := h1.has
  rw [hhas.ip, Option.some.injEq] at e2
  rw [hhas.bl] at e3
  simp only [Option.some.injEq, Base.inst.injEq] at e3
  subst e2 e3
  rw [← cost_perm N d' e4, ← e5, cost_same N g12 c'.model] at hle
  exact hle

/-- **C114.** If the objects hold the result of a fit, fitting again — the same data — does not make the result worse. -/
theorem c114_again {N : Numerics K} (hS : Sorting N) (hU : Uniform S) {o o1 o2 : PObj K} {x y : List K} (hr : Ready o.vars.base x y)
    (h1 : PdfExtract.fit (codeWorld N) S D o = (.ok (), o1)) (hh : Holds o1)
    (h2 : PdfExtract.fit (codeWorld N) S D o1 = (.ok (), o2)) :
    ∃ c1 c2, o1.extracted = some c1 ∧ o2.extracted = some c2 ∧ SameGrid c1 c2 ∧
      cost N c2 c2.model c2.baseline ≤ cost N c1 c1.model c1.baseline := by
  obtain ⟨s, P, g, c, c', hd, hrun⟩ := run_first hU hr h1
  obtain ⟨d, d', hrun2, hsame, hle⟩ := run_again hS hd hrun hh h2
  exact ⟨c', d', by rw [hrun.after], by rw [hrun2.after], hsame, hle⟩

end Verif.Parts.Refit
