import Verif.Repeat.Lemmas
import Verif.Repeat.Sharing
import Verif.Held.Props
import Verif.PdfExtract.Example
import Mathlib.Tactic.NormNum

/-!
# Property C107: extraction leaves the caller's objects alone, except for a baseline that it fits, and can be repeated

## Specification

`Spared bl H H'` says what may have happened to the objects of the caller, `bl` being the baseline of the extraction.
The model of what happens to them is in `Repeat/Model.lean`.
-/

set_option linter.unusedSectionVars false

namespace Verif.Parts.Repeat

open Verif.Py Verif.Extraction Verif.Pdf Verif.Parts.Extract Verif.Parts.ModelCluster Verif.Parts.PdfExtract
open Verif.Parts.Held (Refined refined_of_key)

section

variable {K : Type} [Field K] [LinearOrder K] [IsStrictOrderedRing K]

/-- The part has a parameter that is not held fixed. -/
def HasFree (p : Part K) : Prop := ∃ j : ℕ, p.free[j]? = some true

/-- The lists of peaks and of functions are as they were, and so are all baselines but the given one, in which other values of free parameters
may have been written. -/
structure Spared (bl : Option Base) (H H' : Heap K) : Prop where
  peaks : H'.peaks = H.peaks
  funcs : H'.funcs = H.funcs
  others : ∀ i, bl ≠ some (.inst i) → H'.base i = H.base i
  base : ∀ i, Refined (H.base i) (H'.base i)
  same : ∀ i, SamePeak (H'.base i) (H.base i)
  fixed : (∀ i, bl = some (.inst i) → ¬ HasFree (H.base i)) → H' = H

/-! ## Lemmas -/

theorem Spared.refl (bl : Option Base) (H : Heap K) : Spared bl H H :=
  ⟨rfl, rfl, fun _ _ => rfl, fun _ => refined_of_key rfl, fun _ => (samePeak_iff _ _).2 rfl, fun _ => rfl⟩

theorem hasFree_of_npars {p : Part K} (h : 0 < p.npars false) : HasFree p := by
  unfold Part.npars at h
  simp only [Bool.false_eq_true, if_false, List.count_pos_iff] at h
  exact List.mem_iff_getElem?.1 h

theorem started_base {E : Env K} {o : Opts} {c c' : Cluster K} (h : started E o c = some c') : c'.baseline = c.baseline := by
  unfold started at h
  split at h
  · cases h
  · split at h
    · split at h
      · split at h
        · cases h
        · simp only [Option.some.injEq] at h
          rw [← h]
      · cases h
    · simp only [Option.some.injEq] at h
      rw [← h]

/-- What a fit writes into the baseline object. -/
theorem written_frame {E : Env K} (hT : Tame E) {o : Opts} {c : Cluster K} {b' : Part K} (h : written E o c = some b') :
    ∃ b, c.baseline = some b ∧ key b' = key b ∧ 0 < b.npars false := by
  unfold written at h
  split at h
  · cases h
  · rename_i c' hs
    split at h
    · cases h
    · rename_i b hb
      obtain ⟨-, p', h2, h3⟩ := forall₂_dropLast (hT.frame (c'.model ++ [b]))
      rw [h, Option.some.injEq] at h2
      subst h2
      unfold fitBaseline at hb
      rw [started_base hs] at hb
      split at hb
      · rename_i b0 hb0
        split at hb
        · rename_i hfree
          simp only [Option.some.injEq] at hb
          subst hb
          exact ⟨b0, hb0, frame_key h3, hfree.2⟩
        · cases hb
      · cases hb

/-- The objects after the last fit of a cluster whose baseline is, up to values, that of the caller. -/
theorem fitOn_spared {W : World K} (hS : Sane W) (held : Bool) {bl : ℕ} {c : Cluster K} {b : Part K} {H0 H : Heap K} (hb : c.baseline = some b)
    (hk : key b = key (H0.base bl)) (h : Spared (some (.inst bl)) H0 H) : Spared (some (.inst bl)) H0 (fitOn W held bl c H) := by
  unfold fitOn
  split
  · rename_i b' hw
    obtain ⟨b0, h1, h2, h3⟩ := written_frame (hS.ctame c) hw
    rw [hb, Option.some.injEq] at h1
    subst h1
    refine ⟨h.peaks, h.funcs, ?_, ?_, ?_, ?_⟩
    · intro i hi
      have hne : i ≠ bl := by rintro rfl; exact hi rfl
      simp only [Function.update_of_ne hne]
      exact h.others i hi
    · intro i
      by_cases hi : i = bl
      · subst hi
        simp only [Function.update_self]
        exact refined_of_key (h2.trans hk)
      · simp only [Function.update_of_ne hi]
        exact h.base i
    · intro i
      by_cases hi : i = bl
      · subst hi
        simp only [Function.update_self]
        exact (samePeak_iff _ _).2 (h2.trans hk)
      · simp only [Function.update_of_ne hi]
        exact h.same i
    · intro hf
      refine absurd (hasFree_of_npars h3) ?_
      have := hf bl rfl
      unfold HasFree at this ⊢
      rw [show b.free = (H0.base bl).free by unfold key at hk; simp only [Prod.mk.injEq] at hk; exact hk.2.1]
      exact this
  · exact h

variable {W : World K} {H : Heap K} {D : Defaults K}

/-- The baseline of the cluster that is fitted last by `extract_single`. -/
theorem untilLast_base (hS : Sane W) (hE : Estimates W) (hN : H.peaks D.noPeaks = []) {s t : PX K} {x y : List K} (hr : Ready s x y) {c : Cluster K}
    {held : Bool} (h : untilLast W H D s = .ok (c, held)) (ht : defaultvars D s = (.ok (), t)) {bl : ℕ} (hbl : t.baseline = some (.inst bl)) :
    c.baseline = some (H.base bl) ∧ ((∀ J, jobOf H t = .ok J → LaterPeak W J) → held = false) := by
  unfold untilLast at h
  rw [ht] at h
  simp only at h
  split at h
  · simp at h
  · rename_i J hJ
    split at h
    · simp at h
    rename_i c' hsearch
    simp only [Except.ok.injEq, Prod.mk.injEq] at h
    obtain ⟨rfl, h⟩ := h
    have hdata := job_data hr (defaulted ht) hJ
    have hne : J.x ≠ [] := fun h0 => search_empty h0 hsearch
    have hfd := deeper_finds (W := W) (n := 2) (depth := 1) hN hJ (extract_found_by hS (supplies hE) hN 2 2)
    rw [if_pos (by omega)] at hfd
    have hfound := search_found hS (supplies hE J) hfd hdata hne hsearch
    have hJb : J.bl = H.base bl := by
      obtain ⟨_, _, _, _, _, bl', _, _, _, _, _, _, -, -, -, -, h5, -, -, -, -, -, rfl⟩ := jobOf_ok hJ
      rw [hbl, Option.some.injEq, Base.inst.injEq] at h5
      subst h5
      rfl
    refine ⟨?_, fun hp => by rw [← h]; exact searchShare_later hS (supplies hE J) hfd hdata (hp J hJ) hsearch⟩
    rcases hfound.base with hb | ⟨h0, -⟩
    · rw [hb, hJb]
    · simp at h0

theorem afterSingle_spared (hS : Sane W) (hE : Estimates W) (hN : H.peaks D.noPeaks = []) {s t : PX K} {x y : List K} (hr : Ready s x y)
    (ht : defaultvars D s = (.ok (), t)) {bl : ℕ} (hbl : t.baseline = some (.inst bl)) :
    Spared (some (.inst bl)) H (afterSingle W D bl s H) := by
  unfold afterSingle
  split
  · exact Spared.refl _ _
  · rename_i c held hc
    exact fitOn_spared hS held (untilLast_base hS hE hN hr hc ht hbl).1 rfl (Spared.refl _ _)

theorem fitOn_false (bl : ℕ) (c : Cluster K) (H : Heap K) : fitOn W false bl c H = H := by
  unfold fitOn
  rfl

theorem afterSingle_later (hS : Sane W) (hE : Estimates W) (hN : H.peaks D.noPeaks = []) {s t : PX K} {x y : List K} (hr : Ready s x y)
    (ht : defaultvars D s = (.ok (), t)) {bl : ℕ} (hbl : t.baseline = some (.inst bl)) (hp : ∀ J, jobOf H t = .ok J → LaterPeak W J) :
    afterSingle W D bl s H = H ∧ singleShares W D s H = false := by
  unfold afterSingle singleShares
  split
  · exact ⟨rfl, rfl⟩
  · rename_i c held hc
    rw [(untilLast_base hS hE hN hr hc ht hbl).2 hp]
    exact ⟨fitOn_false _ _ _, rfl⟩

theorem extract_vars {S : Sampler K} {n : ℕ} {o o' : PObj K} {r : Res Unit} (h : PdfExtract.extract W S D n o = some (r, o')) :
    o'.vars = (pdefaultvars S.pi D o.vars).2 := by
  unfold PdfExtract.extract at h
  generalize pdefaultvars S.pi D o.vars = dv at h ⊢
  obtain ⟨u, s⟩ := dv
  cases u with
  | error e =>
    simp only [Option.some.injEq, Prod.mk.injEq] at h
    rw [← h.2]
  | ok u =>
    simp only [Option.map_eq_some_iff] at h
    obtain ⟨q, -, h⟩ := h
    unfold leave at h
    cases q with
    | error e => simp only [Prod.mk.injEq] at h; rw [← h.2]
    | ok c => simp only [Prod.mk.injEq] at h; rw [← h.2]

/-- In the initial extraction some point is higher above baseline and initial peaks than the first one. -/
def LaterPeakPdf (W : World K) (S : Sampler K) (D : Defaults K) (s : PPX K) (H : Heap K) : Prop :=
  ∀ P g t J, complete s = .ok P → firstGrid S D s P = .ok g → innerVars D P g = .ok t → jobOf H (defaultvars D t).2 = .ok J → LaterPeak W J

theorem afterExtract_spared (hS : Sane W) (hE : Estimates W) {S : Sampler K} (hU : Uniform S) (hR : Ripples S) {n : ℕ} {o : PObj K}
    (hN : o.heap.peaks D.noPeaks = []) {x y : List K} (hr : Ready o.vars.base x y) (hss : ∀ v, o.vars.supersample = some v → 0 < v) {s : PPX K}
    (hs : pdefaultvars S.pi D o.vars = (.ok (), s)) :
    Spared s.base.baseline o.heap (afterExtract W S D n s o.heap).1 ∧
    (LaterPeakPdf W S D s o.heap → afterExtract W S D n s o.heap = (o.heap, false)) := by
  unfold afterExtract
  split
  · exact ⟨Spared.refl _ _, fun _ => rfl⟩
  rename_i P hP0
  have hP := complete_ok hP0
  split
  · exact ⟨Spared.refl _ _, fun _ => rfl⟩
  rename_i g hg
  split
  · exact ⟨Spared.refl _ _, fun _ => rfl⟩
  rename_i t ht
  obtain ⟨hfrom, hx, hy, hl⟩ := from_of hr hs hP
  have he : SettledEff P.eff := by rw [← hP.eff]; exact pdefault_settled hs
  have hss' : 0 < P.ss := by
    rw [hfrom.ss]
    cases hv : o.vars.supersample with
    | none => simp
    | some v => exact hss v hv
  obtain ⟨eff, heff, hfd, hdata⟩ := firstGrid_ok hU hP he hss' (by rw [hx]; exact hr.inc)
    (by rw [hx, hy]; exact hr.leny) (by rw [hx]; exact hl) hg
  have hin := innerVars_ok ht
  have hsp : Spared s.base.baseline o.heap (afterSingle W D P.bl t o.heap) := by
    rw [hP.bl]
    exact afterSingle_spared hS hE hN (hin.ready hdata) hin.fix hin.bl
  have hlp : LaterPeakPdf W S D s o.heap → afterSingle W D P.bl t o.heap = o.heap ∧ singleShares W D t o.heap = false := by
    intro hlp
    refine afterSingle_later hS hE hN (hin.ready hdata) hin.fix hin.bl ?_
    intro J hJ
    exact hlp P g t J hP0 hg ht (by rw [hin.fix]; exact hJ)
  split
  · exact ⟨hsp, fun h => by rw [(hlp h).1]⟩
  rename_i c hc
  simp only
  split
  · rename_i c' hc'
    have hfo := initial_found hS hE hN hin hdata hc
    simp only [decide_true] at hfo
    obtain ⟨⟨b0, hb0, hb0'⟩, m, hm', hk, -⟩ := found_stage hfo
    obtain ⟨k, r, y, e, -, hst, -⟩ := refine_ok hS hE hP he heff hfd hR hfo hk hc'
    refine ⟨?_, fun h => ?_⟩
    · rw [hP.bl] at hsp ⊢
      exact fitOn_spared hS _ (hst.base.trans hb0) ((samePeak_iff _ _).1 hb0') hsp
    · rw [(hlp h).1, (hlp h).2]
      simp only [Bool.false_and, fitOn_false]
  · exact ⟨hsp, fun h => by rw [(hlp h).1]⟩

/-! ## Theorems -/

/-- **C107.** `PDFPeakExtraction.extract`, whether it returns or raises, changes nothing of the lists of peaks and functions it was given, and
of the baseline at most the values of free parameters; if the baseline has none, no object at all.  The variables of the object are those
that `defaultvars` sets. -/
theorem c107_objects (hS : Sane W) (hE : Estimates W) {S : Sampler K} (hU : Uniform S) (hR : Ripples S) {n : ℕ} {o o' : PObj K} {r : Res Unit}
    (hN : o.heap.peaks D.noPeaks = []) {x y : List K} (hr : Ready o.vars.base x y) (hss : ∀ v, o.vars.supersample = some v → 0 < v)
    (h : extractOn W S D n o = some (r, o')) :
    Spared o'.vars.base.baseline o.heap o'.heap ∧ o'.vars = (pdefaultvars S.pi D o.vars).2 := by
  unfold extractOn at h
  rw [Option.map_eq_some_iff] at h
  obtain ⟨⟨r', o1⟩, h1, h2⟩ := h
  simp only [Prod.mk.injEq] at h2
  obtain ⟨rfl, rfl⟩ := h2
  have hv := extract_vars h1
  refine ⟨?_, hv⟩
  simp only [hv]
  unfold effects
  generalize hs : pdefaultvars S.pi D o.vars = dv
  obtain ⟨u, s⟩ := dv
  cases u with
  | error e => exact Spared.refl _ _
  | ok u => exact (afterExtract_spared hS hE hU hR hN hr hss hs).1

/-- **C107.** If the first point of the data is not the highest one (above baseline and initial peaks), `extract` changes no object of the
caller at all, and the baseline of the result is not the caller's object. -/
theorem c107_untouched (hS : Sane W) (hE : Estimates W) {S : Sampler K} (hU : Uniform S) (hR : Ripples S) {n : ℕ} {o o' : PObj K} {r : Res Unit}
    (hN : o.heap.peaks D.noPeaks = []) {x y : List K} (hr : Ready o.vars.base x y) (hss : ∀ v, o.vars.supersample = some v → 0 < v)
    (h : extractOn W S D n o = some (r, o')) (hp : LaterPeakPdf W S D o'.vars o.heap) :
    o'.heap = o.heap ∧ (effects W S D n o).2 = false := by
  unfold extractOn at h
  rw [Option.map_eq_some_iff] at h
  obtain ⟨⟨r', o1⟩, h1, h2⟩ := h
  simp only [Prod.mk.injEq] at h2
  obtain ⟨rfl, rfl⟩ := h2
  have hv := extract_vars h1
  simp only [hv] at hp ⊢
  unfold effects
  generalize hs : pdefaultvars S.pi D o.vars = dv at hp
  obtain ⟨u, s⟩ := dv
  cases u with
  | error e => exact ⟨rfl, rfl⟩
  | ok u =>
    simp only
    rw [(afterExtract_spared hS hE hU hR hN hr hss hs).2 hp]
    exact ⟨rfl, rfl⟩

theorem singleOn_spared (hS : Sane W) (hE : Estimates W) {o o' : Obj K} {r : Res Unit} (hN : o.heap.peaks D.noPeaks = []) {x y : List K}
    (hr : Ready o.vars x y) (h : singleOn W D o = (r, o')) :
    (Spared o'.vars.baseline o.heap o'.heap ∧ o'.vars = (defaultvars D o.vars).2) ∧
    ((∀ J, jobOf o.heap o'.vars = .ok J → LaterPeak W J) → o'.heap = o.heap) := by
  unfold singleOn at h
  generalize hs : defaultvars D o.vars = dv at h
  obtain ⟨u, s⟩ := dv
  cases u with
  | error e =>
    simp only [Prod.mk.injEq] at h
    rw [← h.2]
    exact ⟨⟨Spared.refl _ _, rfl⟩, fun _ => rfl⟩
  | ok u =>
    have key : ∀ H, H = (match s.baseline with | some (.inst bl) => afterSingle W D bl o.vars o.heap | _ => o.heap) →
        Spared s.baseline o.heap H ∧ ((∀ J, jobOf o.heap s = .ok J → LaterPeak W J) → H = o.heap) := by
      intro H hH
      cases hb : s.baseline with
      | none => rw [hb] at hH; rw [hH]; exact ⟨Spared.refl _ _, fun _ => rfl⟩
      | some b =>
        cases b with
        | func f => rw [hb] at hH; rw [hH]; exact ⟨Spared.refl _ _, fun _ => rfl⟩
        | inst bl =>
          rw [hb] at hH
          rw [hH]
          exact ⟨afterSingle_spared hS hE hN hr hs hb, fun hp => (afterSingle_later hS hE hN hr hs hb hp).1⟩
    simp only at h
    split at h
    · simp only [Prod.mk.injEq] at h
      rw [← h.2]
      exact ⟨⟨(key _ rfl).1, rfl⟩, (key _ rfl).2⟩
    · simp only [Prod.mk.injEq] at h
      rw [← h.2]
      exact ⟨⟨(key _ rfl).1, rfl⟩, (key _ rfl).2⟩

/-- **C107.** `PeakExtraction.extract_single`. -/
theorem c107_objects_single (hS : Sane W) (hE : Estimates W) {o o' : Obj K} {r : Res Unit} (hN : o.heap.peaks D.noPeaks = []) {x y : List K}
    (hr : Ready o.vars x y) (h : singleOn W D o = (r, o')) :
    Spared o'.vars.baseline o.heap o'.heap ∧ o'.vars = (defaultvars D o.vars).2 := (singleOn_spared hS hE hN hr h).1

/-- **C107.** `PeakExtraction.extract_single` when the first point is not the highest. -/
theorem c107_untouched_single (hS : Sane W) (hE : Estimates W) {o o' : Obj K} {r : Res Unit} (hN : o.heap.peaks D.noPeaks = []) {x y : List K}
    (hr : Ready o.vars x y) (h : singleOn W D o = (r, o')) (hp : ∀ J, jobOf o.heap o'.vars = .ok J → LaterPeak W J) :
    o'.heap = o.heap := (singleOn_spared hS hE hN hr h).2 hp

/-- If a fit keeps the baseline object, the object has the values of the cluster's baseline afterwards. -/
theorem fitted_shared (hS : Sane W) {bl : ℕ} {c c' : Cluster K} {H : Heap K} (hb : c.baseline = some (H.base bl))
    (hk : kept (final W) { fitbaseline := true } c = true) (hf : fitted (final W) { fitbaseline := true } c = .ok c') :
    c'.baseline = some ((fitOn W true bl c H).base bl) := by
  have core : ∀ c1 : Cluster K, started ((final W).env c) { fitbaseline := true } c = some c1 →
      ModelCluster.fit ((final W).env c) { fitbaseline := true } c = fitCore ((final W).env c) { fitbaseline := true } c1 →
      c'.baseline = some ((fitOn W true bl c H).base bl) := by
    intro c1 hs hfit
    unfold kept at hk
    unfold fitted at hf
    rw [hs, hfit] at hk
    rw [hfit] at hf
    have hb1 := started_base hs
    rw [hb] at hb1
    have hl : (launch ((final W).env c) { fitbaseline := true } c1).2.2 = some ((fitOn W true bl c H).base bl) := by
      unfold fitOn written launch
      rw [hs]
      simp only
      cases hfb : fitBaseline { fitbaseline := true } c1 with
      | none =>
        simp only [hb1]
      | some b =>
        simp only
        obtain ⟨-, p', h2, -⟩ := forall₂_dropLast ((hS.ctame c).frame (c1.model ++ [b]))
        rw [show ((final W).env c).lsq = W.covLsq c from rfl] at *
        have h2' : ((W.covLsq c) (c1.model ++ [b])).2.getLast? = some p' := h2
        rw [h2']
        simp only [Function.update_self]
    unfold fitCore at hk hf
    generalize hL : launch ((final W).env c) { fitbaseline := true } c1 = L at hk hf hl
    obtain ⟨u, m, b⟩ := L
    simp only at hl
    subst hl
    cases u with
    | error e =>
      cases e <;> simp at hk hf
    | ok u =>
      simp only at hk hf
      split at hf
      · simp at hf
      rename_i e c2 l heq
      rw [heq] at hk
      simp only [Except.ok.injEq] at hf
      subst hf
      split at heq
      · simp at heq
      · simp only [Prod.mk.injEq, Except.ok.injEq] at heq
        rw [← heq.1] at hk
        simp at hk
      · split at heq
        · simp only [Prod.mk.injEq, Except.ok.injEq] at heq
          rw [← heq.1] at hk
          simp at hk
        · simp only [Prod.mk.injEq] at heq
          rw [← heq.2.1]
  have idle : started ((final W).env c) { fitbaseline := true } c = none → c'.baseline = c.baseline → c'.baseline = some ((fitOn W true bl c H).base bl) := by
    intro hs h
    unfold fitOn written
    rw [hs, h, hb]
  by_cases hn : c.neverFit = true
  · refine idle (by unfold started; rw [if_pos hn]) ?_
    unfold fitted ModelCluster.fit at hf
    rw [if_pos hn] at hf
    simp only [Except.ok.injEq] at hf
    rw [← hf]
  by_cases hm : c.model = []
  · by_cases he : (({ fitbaseline := true } : Opts)).estimate = true
    · cases hp : estimatepeak ((final W).env c) c.model with
      | mk u m =>
        cases u with
        | ok u =>
          refine core { c with model := m } ?_ ?_
          · unfold started; rw [if_neg hn, if_pos hm, if_pos he, hp]
          · unfold ModelCluster.fit; rw [if_neg hn, if_pos hm, if_pos he, hp]
        | error e =>
          refine idle (by unfold started; rw [if_neg hn, if_pos hm, if_pos he, hp]) ?_
          unfold fitted ModelCluster.fit at hf
          rw [if_neg hn, if_pos hm, if_pos he, hp] at hf
          cases e <;> simp only [Except.ok.injEq, reduceCtorEq] at hf
          rw [← hf]
    · exact absurd rfl he
  · refine core c ?_ ?_
    · unfold started; rw [if_neg hn, if_neg hm]
    · unfold ModelCluster.fit; rw [if_neg hn, if_neg hm]

/-- The result of `extract_single` when it has the caller's baseline object. -/
theorem single_shared (hS : Sane W) (hE : Estimates W) (hN : H.peaks D.noPeaks = []) {s t : PX K} {x y : List K} (hr : Ready s x y)
    (ht : defaultvars D s = (.ok (), t)) {bl : ℕ} (hbl : t.baseline = some (.inst bl)) {c : Cluster K} (hc : extractSingle W H D 3 1 s = .ok c)
    (hs : singleShares W D s H = true) : c.baseline = some ((afterSingle W D bl s H).base bl) := by
  unfold singleShares at hs
  unfold afterSingle
  split at hs
  · cases hs
  · rename_i c0 held h0
    simp only [Bool.and_eq_true] at hs
    obtain ⟨rfl, hk⟩ := hs
    have hb := (untilLast_base hS hE hN hr h0 ht hbl).1
    refine fitted_shared hS hb hk ?_
    unfold untilLast at h0
    unfold extractSingle at hc
    rw [ht] at h0 hc
    simp only at h0 hc
    split at h0
    · cases h0
    · rename_i J hJ
      rw [hJ] at hc
      simp only [decide_true, search_top] at hc
      split at h0
      · cases h0
      · rename_i c1 h1
        simp only [Except.ok.injEq, Prod.mk.injEq] at h0
        obtain ⟨rfl, -⟩ := h0
        obtain ⟨c2, h2, h3⟩ := bind_ok hc
        rw [if_pos (by omega)] at h2
        unfold below at h1
        have h2' := h1.symm.trans h2
        simp only [Except.ok.injEq] at h2'
        rw [h2']
        exact h3

/-- **C107.** If the baseline of the result of `extract` is the caller's object, the two have the same values (there is one object only). -/
theorem c107_shared (hS : Sane W) (hE : Estimates W) {S : Sampler K} (hU : Uniform S) (hR : Ripples S) {n : ℕ} {o o' : PObj K}
    (hN : o.heap.peaks D.noPeaks = []) {x y : List K} (hr : Ready o.vars.base x y) (hss : ∀ v, o.vars.supersample = some v → 0 < v)
    (h : extractOn W S D n o = some (.ok (), o')) (hs : (effects W S D n o).2 = true) :
    ∃ i c, o'.vars.base.baseline = some (.inst i) ∧ o'.extracted = some c ∧ c.baseline = some (o'.heap.base i) := by
  unfold extractOn at h
  rw [Option.map_eq_some_iff] at h
  obtain ⟨⟨r', o1⟩, h1, h2⟩ := h
  simp only [Prod.mk.injEq] at h2
  obtain ⟨rfl, rfl⟩ := h2
  have hv := extract_vars h1
  simp only [hv]
  unfold effects at hs ⊢
  unfold PdfExtract.extract at h1
  generalize hd : pdefaultvars S.pi D o.vars = dv at hs h1
  obtain ⟨u, s⟩ := dv
  cases u with
  | error e => simp at hs
  | ok u =>
    simp only at hs h1 ⊢
    rw [Option.map_eq_some_iff] at h1
    obtain ⟨q, hq, hl⟩ := h1
    unfold leave at hl
    split at hl
    · simp at hl
    rename_i cf
    simp only [Prod.mk.injEq, true_and] at hl
    rw [← hl]
    unfold extracted at hq
    unfold afterExtract at hs ⊢
    split at hs
    · cases hs
    rename_i P hP0
    have hP := complete_ok hP0
    split at hs
    · cases hs
    rename_i g hg
    split at hs
    · cases hs
    rename_i t ht
    obtain ⟨hfrom, hx, hy, hl⟩ := from_of hr hd hP
    have he : SettledEff P.eff := by rw [← hP.eff]; exact pdefault_settled hd
    have hss' : 0 < P.ss := by
      rw [hfrom.ss]
      cases hv : o.vars.supersample with
      | none => simp
      | some v => exact hss v hv
    obtain ⟨eff, heff, hfd, hdata⟩ := firstGrid_ok hU hP he hss' (by rw [hx]; exact hr.inc)
      (by rw [hx, hy]; exact hr.leny) (by rw [hx]; exact hl) hg
    have hin := innerVars_ok ht
    split at hs
    · cases hs
    rename_i c hc
    simp only at hs
    have hbg : begun W o.heap S D s = .ok (P, g, c) := by
      unfold begun
      rw [hP0]
      simp only [bind, Except.bind, hg, ht, hc]
      rfl
    rw [hbg] at hq
    simp only at hq
    split at hs
    · rename_i c' hc'
      simp only [Bool.and_eq_true] at hs
      obtain ⟨⟨hsh, hrk⟩, hk⟩ := hs
      rw [hc'] at hq
      simp only [Option.map_some, Option.some.injEq] at hq
      unfold finished at hq
      simp only at hq
      have hb := single_shared hS hE hN (hin.ready hdata) hin.fix hin.bl hc hsh
      have hfo := initial_found hS hE hN hin hdata hc
      simp only [decide_true] at hfo
      obtain ⟨-, m, hm', hkk, -⟩ := found_stage hfo
      obtain ⟨k, r, y, e, -, hst, -⟩ := refine_ok hS hE hP he heff hfd hR hfo hkk hc'
      refine ⟨P.bl, cf, hP.bl, rfl, ?_⟩
      simp only [hsh, hrk, Bool.true_and]
      exact fitted_shared hS (hst.base.trans hb) hk hq
    · cases hs

theorem extractOn_congr {S : Sampler K} {n : ℕ} {o o₁ : PObj K} (hv : pdefaultvars S.pi D o₁.vars = pdefaultvars S.pi D o.vars) (hH : o₁.heap = o.heap) :
    extractOn W S D n o₁ = extractOn W S D n o := by
  unfold extractOn effects PdfExtract.extract
  rw [hv, hH]

/-- **C107.** With a baseline without free parameters (such as the default one), or data whose first point is not the highest, an extraction
can be repeated: a second call of `extract` gives the same result, or raises the same exception, and changes nothing. -/
theorem c107_repeat (hS : Sane W) (hE : Estimates W) {S : Sampler K} (hU : Uniform S) (hR : Ripples S) {n : ℕ} {o o' : PObj K} {r : Res Unit}
    (hN : o.heap.peaks D.noPeaks = []) {x y : List K} (hr : Ready o.vars.base x y) (hss : ∀ v, o.vars.supersample = some v → 0 < v)
    (h : extractOn W S D n o = some (r, o'))
    (hq : (∀ i, o'.vars.base.baseline = some (.inst i) → ¬ HasFree (o.heap.base i)) ∨ LaterPeakPdf W S D o'.vars o.heap) :
    extractOn W S D n o' = some (r, o') := by
  obtain ⟨hsp, hv⟩ := c107_objects hS hE hU hR hN hr hss h
  have hH : o'.heap = o.heap := by
    rcases hq with hq | hq
    · exact hsp.fixed hq
    · exact (c107_untouched hS hE hU hR hN hr hss h hq).1
  have hdv : pdefaultvars S.pi D o'.vars = pdefaultvars S.pi D o.vars := by rw [hv, pdefaultvars_again]
  rw [extractOn_congr hdv hH, h]

/-- **C107.** `PeakExtraction.extract_single`. -/
theorem c107_repeat_single (hS : Sane W) (hE : Estimates W) {o o' : Obj K} {r : Res Unit} (hN : o.heap.peaks D.noPeaks = []) {x y : List K}
    (hr : Ready o.vars x y) (h : singleOn W D o = (r, o'))
    (hq : (∀ i, o'.vars.baseline = some (.inst i) → ¬ HasFree (o.heap.base i)) ∨ ∀ J, jobOf o.heap o'.vars = .ok J → LaterPeak W J) :
    singleOn W D o' = (r, o') := by
  obtain ⟨hsp, hv⟩ := c107_objects_single hS hE hN hr h
  have hH : o'.heap = o.heap := by
    rcases hq with hq | hq
    · exact hsp.fixed hq
    · exact c107_untouched_single hS hE hN hr h hq
  have hdv : defaultvars D o'.vars = defaultvars D o.vars := by rw [hv, defaultvars_again]
  have e1 : ∀ H n k, extractSingle W H D n k o'.vars = extractSingle W H D n k o.vars := by
    intro H n k
    cases n with
    | zero => rfl
    | succ n => unfold extractSingle; rw [hdv]
  have e2 : ∀ i, afterSingle W D i o'.vars o.heap = afterSingle W D i o.vars o.heap := by
    intro i
    unfold afterSingle untilLast
    rw [hdv]
  rw [← h]
  unfold singleOn
  rw [hdv, hH]
  simp only [e1, e2]

/-- Any number of further extractions. -/
def extractMore (W : World K) (S : Sampler K) (D : Defaults K) (n : ℕ) : ℕ → PObj K → Option (List (Res Unit) × PObj K)
  | 0, o => some ([], o)
  | k + 1, o =>
    match extractOn W S D n o with
    | none => none
    | some (r, o') =>
      match extractMore W S D n k o' with
      | none => none
      | some (rs, o'') => some (r :: rs, o'')

/-- **C107.** After one such extraction, all further ones give the same. -/
theorem c107_again (hS : Sane W) (hE : Estimates W) {S : Sampler K} (hU : Uniform S) (hR : Ripples S) {n : ℕ} {o o' : PObj K} {r : Res Unit}
    (hN : o.heap.peaks D.noPeaks = []) {x y : List K} (hr : Ready o.vars.base x y) (hss : ∀ v, o.vars.supersample = some v → 0 < v)
    (h : extractOn W S D n o = some (r, o'))
    (hq : (∀ i, o'.vars.base.baseline = some (.inst i) → ¬ HasFree (o.heap.base i)) ∨ LaterPeakPdf W S D o'.vars o.heap) (k : ℕ) :
    extractMore W S D n k o' = some (List.replicate k r, o') := by
  induction k with
  | zero => rfl
  | succ k ih =>
    unfold extractMore
    rw [c107_repeat hS hE hU hR hN hr hss h hq]
    simp only [ih, List.replicate_succ]

end

/-! ## Instances and findings -/

/-- A constant baseline with a free parameter. -/
def levelOwner : Owner ℚ := ⟨0, 1, [("a_0", 0)], fun p l => l.map (fun _ => p.getD 0 0), fun _ _ _ => [], fun p _ _ => .ok p⟩

def level (a : ℚ) : Part ℚ := ⟨levelOwner, [a], [true], false, true, false⟩

def levelVal (p : Part ℚ) (a : ℚ) : ℚ := if p.owner.id = 0 then p.pars.getD 0 0 else spotAt p.pars a

/-- An optimiser that leaves the peaks where they are, but puts a baseline at `t`. -/
def toLevel (t : ℚ) (m : List (Part ℚ)) : Lsq ℚ :=
  match m.getLast? with
  | some p => if p.owner.id = 0 then ⟨[], .done (m.dropLast.flatMap stayAt ++ [t]) 1 (some (eye (npars m false))) []⟩ else stay m
  | none => stay m

def levels (t : ℚ) : Numerics ℚ := { spots .aic with val := levelVal, opt := fun _ m => (toLevel t m, toLevel t m) }

theorem levels_sorting (t : ℚ) : Sorting (levels t) := ⟨mergeAs_sorts, pickBest_one, spots_scales .aic⟩

/-- The baseline of the caller is at 0. -/
def levelObj (y : List ℚ) : Obj ℚ := ⟨{ dotVars none none with y := some y }, { dotHeap with base := fun _ => level 0 }, none⟩

theorem levelObj_ready {y : List ℚ} (h : y.length = 7) : Ready (levelObj y).vars [0, 1, 2, 3, 4, 5, 6] y :=
  ⟨rfl, rfl, ⟨_, rfl, rfl⟩, by intro e h; simp [levelObj, dotVars] at h, by decide +kernel, h⟩

/-- Peaks and baseline of the result, and the baseline object of the caller after the call. -/
def result (r : Res Unit × Obj ℚ) : Option (List (List ℚ) × Option (List ℚ)) × List ℚ :=
  (r.2.extracted.map (fun c => (c.model.map (fun p => p.pars), c.baseline.map (fun p => p.pars))), (r.2.heap.base 0).pars)

def once (t : ℚ) (y : List ℚ) : Res Unit × Obj ℚ := singleOn (codeWorld (levels t)) dotDef (levelObj y)
def twice (t : ℚ) (y : List ℚ) : Res Unit × Obj ℚ := singleOn (codeWorld (levels t)) dotDef (once t y).2

theorem high_first : ([4, 1/4, 1/4, 1/4, 3, 1/4, 1/4] : List ℚ).length = 7 := rfl

example := c107_objects_single (c95_sane _ (levels_sorting 2)) (c95_estimates (levels 2)).1 (D := dotDef)
  (o := levelObj [4, 1/4, 1/4, 1/4, 3, 1/4, 1/4]) rfl (levelObj_ready high_first)
  (Prod.mk.eta (p := singleOn (codeWorld (levels 2)) dotDef (levelObj [4, 1/4, 1/4, 1/4, 3, 1/4, 1/4]))).symm

/-- **C107, finding.** If the first point of the data is the highest one, a baseline with free parameters may be an input and an output
at once: an extraction that fits it finds other peaks when it is repeated. -/
theorem c107_twice : Sorting (levels (1/4)) ∧ Ready (levelObj [4, 1/4, 1/4, 1/4, 3, 1/4, 1/4]).vars [0, 1, 2, 3, 4, 5, 6] [4, 1/4, 1/4, 1/4, 3, 1/4, 1/4] ∧
    result (once (1/4) [4, 1/4, 1/4, 1/4, 3, 1/4, 1/4]) = (some ([[0, 4], [4, 3]], some [1/4]), [1/4]) ∧
    result (twice (1/4) [4, 1/4, 1/4, 1/4, 3, 1/4, 1/4]) = (some ([[0, 15/4], [4, 11/4]], some [1/4]), [1/4]) :=
  ⟨levels_sorting _, levelObj_ready high_first, by decide +kernel, by decide +kernel⟩

/-- **C107, finding.** Even when the last fit is rejected: the result has the baseline from before, at 0, but the caller's object has been left
where the rejected fit went, at 2, and the next extraction starts from there. -/
theorem c107_rejected : Sorting (levels 2) ∧ Ready (levelObj [4, 1/4, 1/4, 1/4, 3, 1/4, 1/4]).vars [0, 1, 2, 3, 4, 5, 6] [4, 1/4, 1/4, 1/4, 3, 1/4, 1/4] ∧
    result (once 2 [4, 1/4, 1/4, 1/4, 3, 1/4, 1/4]) = (some ([[0, 4], [4, 3]], some [0]), [2]) ∧
    result (twice 2 [4, 1/4, 1/4, 1/4, 3, 1/4, 1/4]) = (some ([[0, 2], [4, 1]], some [2]), [2]) :=
  ⟨levels_sorting _, levelObj_ready high_first, by decide +kernel, by decide +kernel⟩

/-- With the first two points exchanged the caller's baseline stays at 0, and both extractions find the same. -/
example : result (once (1/4) [1/4, 4, 1/4, 1/4, 3, 1/4, 1/4]) = (some ([[1, 4], [4, 3]], some [1/4]), [0]) ∧
    result (twice (1/4) [1/4, 4, 1/4, 1/4, 3, 1/4, 1/4]) = (some ([[1, 4], [4, 3]], some [1/4]), [0]) :=
  ⟨by decide +kernel, by decide +kernel⟩

/-- The condition of `c107_untouched_single` holds there. -/
theorem level_later {t : ℚ} {o' : Obj ℚ} {r : Res Unit} (h : once t [1/4, 4, 1/4, 1/4, 3, 1/4, 1/4] = (r, o')) :
    ∀ J, jobOf (levelObj [1/4, 4, 1/4, 1/4, 3, 1/4, 1/4]).heap o'.vars = .ok J → LaterPeak (codeWorld (levels t)) J := by
  have hv := (c107_objects_single (c95_sane _ (levels_sorting t)) (c95_estimates (levels t)).1 rfl (levelObj_ready rfl) h).2
  intro J hJ
  rw [hv] at hJ
  have hval : (jobOf (levelObj [1/4, 4, 1/4, 1/4, 3, 1/4, 1/4]).heap (defaultvars dotDef (levelObj [1/4, 4, 1/4, 1/4, 3, 1/4, 1/4]).vars).2).toOption.map
      (fun J => ([J.x[0]?, J.y[0]?, J.x[1]?, J.y[1]?], J.bl.owner.id, J.bl.pars, J.ip.length)) =
      some ([some 0, some (1/4), some 1, some 4], 0, [0], 0) := by decide +kernel
  rw [hJ] at hval
  simp only [Except.toOption, Option.map_some, Option.some.injEq, Prod.mk.injEq, List.cons.injEq, and_true] at hval
  obtain ⟨⟨h1, h2, h3, h4⟩, h5, h6, h7⟩ := hval
  refine ⟨1, 0, 1/4, 1, 4, h1, h2, h3, h4, ?_⟩
  have hb : ∀ a, (codeWorld (levels t)).val J.bl a = 0 := by
    intro a
    show levelVal J.bl a = 0
    unfold levelVal
    rw [if_pos h5, h6]
    rfl
  rw [List.length_eq_zero_iff] at h7
  rw [hb, hb, h7]
  unfold PeakList.valueAt
  norm_num

example {r : Res Unit} {o' : Obj ℚ} (h : once (1/4) [1/4, 4, 1/4, 1/4, 3, 1/4, 1/4] = (r, o')) :=
  c107_repeat_single (c95_sane _ (levels_sorting (1/4))) (c95_estimates (levels (1/4))).1 rfl (levelObj_ready rfl) h (.inr (level_later h))

/-- The point with index 2 is higher above baseline and initial peaks than the first one. -/
def thirdHigher (W : World ℚ) (J : Job ℚ) : Bool :=
  match J.x[0]?, J.y[0]?, J.x[2]?, J.y[2]? with
  | some x₀, some y₀, some x₁, some y₁ =>
    decide (y₀ - W.val J.bl x₀ - PeakList.valueAt W.val J.ip x₀ < y₁ - W.val J.bl x₁ - PeakList.valueAt W.val J.ip x₁)
  | _, _, _, _ => false

theorem later_of_third {W : World ℚ} {J : Job ℚ} (h : thirdHigher W J = true) : LaterPeak W J := by
  unfold thirdHigher at h
  split at h
  · rename_i x₀ y₀ x₁ y₁ h1 h2 h3 h4
    exact ⟨2, x₀, y₀, x₁, y₁, h1, h2, h3, h4, of_decide_eq_true h⟩
  · cases h

/-- The job of the initial extraction. -/
def innerJob (S : Sampler ℚ) (D : Defaults ℚ) (s : PPX ℚ) (H : Heap ℚ) : Res (Job ℚ) :=
  match complete s with
  | .error e => .error e
  | .ok P =>
    match firstGrid S D s P with
    | .error e => .error e
    | .ok g =>
      match innerVars D P g with
      | .error e => .error e
      | .ok t => jobOf H (defaultvars D t).2

theorem laterPdf_of {W : World ℚ} {S : Sampler ℚ} {D : Defaults ℚ} {s : PPX ℚ} {H : Heap ℚ}
    (h : (innerJob S D s H).toOption.map (thirdHigher W) = some true) : LaterPeakPdf W S D s H := by
  intro P g t J h1 h2 h3 h4
  unfold innerJob at h
  rw [h1] at h
  simp only [h2, h3, h4, Except.toOption, Option.map_some, Option.some.injEq] at h
  exact later_of_third h

/-- The baseline of `dotHeap` has no free parameters. -/
theorem dot_fixed (i : ℕ) : ¬ HasFree (dotHeap.base i) := by
  rintro ⟨j, h⟩
  have : (([] : List Bool)[j]?) = some true := h
  simp at this

example {r : Res Unit} {o' : Obj ℚ} (h : singleOn dotWorld dotDef ⟨dotVars (some 1) none, dotHeap, none⟩ = (r, o')) :=
  c107_repeat_single dotWorld_sane dotWorld_estimates rfl (dotVars_ready _ _) h (.inl fun i _ => dot_fixed i)

example {r : Res Unit} {o' : PObj ℚ} (h : extractOn dotWorld linSampler dotDef 5 (pdfObj [0, 3, 5, 0, 0, 0, 0]) = some (r, o')) :=
  c107_again dotWorld_sane dotWorld_estimates linSampler_uniform linSampler_ripples rfl (pdfVars_ready _ rfl)
    (pdf_ss _ rfl) h (.inl fun i _ => dot_fixed i) 3

example {r : Res Unit} {o' : PObj ℚ} (h : extractOn dotWorld linSampler dotDef 5 (pdfObj [0, 3, 5, 0, 0, 0, 0]) = some (r, o')) :=
  c107_untouched dotWorld_sane dotWorld_estimates linSampler_uniform linSampler_ripples rfl (pdfVars_ready _ rfl)
    (pdf_ss _ rfl) h (laterPdf_of (by
      rw [(c107_objects dotWorld_sane dotWorld_estimates linSampler_uniform linSampler_ripples rfl (pdfVars_ready _ rfl)
        (pdf_ss _ rfl) h).2]
      decide +kernel))

/-- The extraction of that instance does return. -/
example : (extractOn dotWorld linSampler dotDef 5 (pdfObj [0, 3, 5, 0, 0, 0, 0])).map
    (fun r => (r.1.toOption, r.2.extracted.map (fun c => c.model.map (fun p => p.pars)))) = some (some (), some [[1, 3], [2, 5]]) := by
  decide +kernel

end Verif.Parts.Repeat
