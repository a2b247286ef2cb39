import Verif.History.Model
import Verif.Pdf.ResetProps

/-!
# Which variables a call can change
-/

namespace Verif.Parts.History

open Verif.Py Verif.Extraction Verif.Pdf Verif.Parts.Extract Verif.Parts.ModelCluster Verif.Parts.PdfExtract

set_option linter.unusedSectionVars false

variable {K : Type}

/-- Variables that are set (completely) in the first object have the same value in the second one, except those with the
given names. -/
structure Kept (ex : List String) (s t : PX K) : Prop where
  cres : "cres" ∉ ex → ∀ v, s.cres = some v → t.cres = some v
  effdy : "effective_dy" ∉ ex → ∀ l, s.effdy = .array l → t.effdy = .array l
  pf : "pf" ∉ ex → ∀ v, s.pf = some v → t.pf = some v
  rng : "rng" ∉ ex → ∀ a b, s.rng = some (some a, some b) → t.rng = some (some a, some b)
  baseline : "baseline" ∉ ex → ∀ v, s.baseline = some (.inst v) → t.baseline = some (.inst v)
  errorMethod : "error_method" ∉ ex → ∀ v, s.errorMethod = some v → t.errorMethod = some v
  initialPeaks : "initial_peaks" ∉ ex → ∀ v, s.initialPeaks = some v → t.initialPeaks = some v

/-- See `Kept`; `dg` is a name of `effective_dy`. -/
structure PKept (ex : List String) (s t : PPX K) : Prop where
  base : Kept (if "dg" ∈ ex then "effective_dy" :: ex else ex) s.base t.base
  qmax : "qmax" ∉ ex → ∀ v, s.qmax = some v → t.qmax = some v
  nyquist : "nyquist" ∉ ex → ∀ v, s.nyquist = some v → t.nyquist = some v
  scale : "scale" ∉ ex → ∀ v, s.scale = some v → t.scale = some v
  supersample : "supersample" ∉ ex → ∀ v, s.supersample = some v → t.supersample = some v

/-- Same data. -/
structure SameData (s t : PX K) : Prop where
  x : t.x = s.x
  y : t.y = s.y
  dx : t.dx = s.dx
  dy : t.dy = s.dy

theorem SameData.refl (s : PX K) : SameData s s := ⟨rfl, rfl, rfl, rfl⟩

theorem SameData.trans {s t u : PX K} (h : SameData s t) (h' : SameData t u) : SameData s u :=
  ⟨h'.x.trans h.x, h'.y.trans h.y, h'.dx.trans h.dx, h'.dy.trans h.dy⟩

theorem Kept.refl (ex : List String) (s : PX K) : Kept ex s s :=
  ⟨fun _ _ h => h, fun _ _ h => h, fun _ _ h => h, fun _ _ _ h => h, fun _ _ h => h, fun _ _ h => h, fun _ _ h => h⟩

theorem Kept.trans {ex : List String} {s t u : PX K} (h : Kept ex s t) (h' : Kept ex t u) : Kept ex s u :=
  ⟨fun n v e => h'.cres n v (h.cres n v e), fun n v e => h'.effdy n v (h.effdy n v e),
    fun n v e => h'.pf n v (h.pf n v e), fun n a b e => h'.rng n a b (h.rng n a b e),
    fun n v e => h'.baseline n v (h.baseline n v e), fun n v e => h'.errorMethod n v (h.errorMethod n v e),
    fun n v e => h'.initialPeaks n v (h.initialPeaks n v e)⟩

theorem Kept.mono {ex ex' : List String} {s t : PX K} (hs : ex ⊆ ex') (h : Kept ex s t) : Kept ex' s t :=
  ⟨fun n => h.cres (fun m => n (hs m)), fun n => h.effdy (fun m => n (hs m)), fun n => h.pf (fun m => n (hs m)),
    fun n => h.rng (fun m => n (hs m)), fun n => h.baseline (fun m => n (hs m)), fun n => h.errorMethod (fun m => n (hs m)),
    fun n => h.initialPeaks (fun m => n (hs m))⟩

theorem withDg_mono {ex ex' : List String} (hs : ex ⊆ ex') :
    (if "dg" ∈ ex then "effective_dy" :: ex else ex) ⊆ (if "dg" ∈ ex' then "effective_dy" :: ex' else ex') := by
  by_cases h : "dg" ∈ ex
  · rw [if_pos h, if_pos (hs h)]
    exact List.cons_subset_cons _ hs
  · rw [if_neg h]
    split
    · exact fun a ha => List.mem_cons_of_mem _ (hs ha)
    · exact hs

theorem PKept.refl (ex : List String) (s : PPX K) : PKept ex s s :=
  ⟨Kept.refl _ _, fun _ _ h => h, fun _ _ h => h, fun _ _ h => h, fun _ _ h => h⟩

theorem PKept.trans {ex : List String} {s t u : PPX K} (h : PKept ex s t) (h' : PKept ex t u) : PKept ex s u :=
  ⟨h.base.trans h'.base, fun n v e => h'.qmax n v (h.qmax n v e), fun n v e => h'.nyquist n v (h.nyquist n v e),
    fun n v e => h'.scale n v (h.scale n v e), fun n v e => h'.supersample n v (h.supersample n v e)⟩

theorem PKept.mono {ex ex' : List String} {s t : PPX K} (hs : ex ⊆ ex') (h : PKept ex s t) : PKept ex' s t :=
  ⟨h.base.mono (withDg_mono hs), fun n => h.qmax (fun m => n (hs m)), fun n => h.nyquist (fun m => n (hs m)),
    fun n => h.scale (fun m => n (hs m)), fun n => h.supersample (fun m => n (hs m))⟩

section

variable [Field K] [LinearOrder K]

/-- A step that changes neither data nor set variables. -/
def Good (ex : List String) (s : PX K) (r : Res Unit × PX K) : Prop := Kept ex s r.2 ∧ SameData s r.2

theorem good_id (ex : List String) (s : PX K) (r : Res Unit) : Good ex s (r, s) := ⟨Kept.refl _ _, SameData.refl _⟩

theorem good_andThen {ex : List String} {s : PX K} {r : Res Unit × PX K} {f : PX K → Res Unit × PX K}
    (h : Good ex s r) (hf : ∀ t, Good ex t (f t)) : Good ex s (andThen r f) := by
  rcases r with ⟨e | _, t⟩
  · exact h
  · exact ⟨h.1.trans (hf t).1, h.2.trans (hf t).2⟩

theorem good_rCres (ex : List String) (s : PX K) : Good ex s (rCres ex s) := by
  obtain ⟨sx, sy, sdx, sdy, seff, srng, spf, sip, sbl, scr, sem⟩ := s
  unfold rCres
  split
  · rename_i h
    split
    · refine ⟨⟨fun n v e => ?_, fun _ _ h => h, fun _ _ h => h, fun _ _ _ h => h, fun _ _ h => h, fun _ _ h => h, fun _ _ h => h⟩, ⟨rfl, rfl, rfl, rfl⟩⟩
      simp only at e
      subst e
      simp [n] at h
    · exact good_id _ _ _
    · exact good_id _ _ _
  · exact good_id _ _ _

theorem good_eff (ex : List String) (s : PX K) (e : EffDy K) (h : "effective_dy" ∉ ex → ∀ l, s.effdy ≠ .array l) (r : Res Unit) :
    Good ex s (r, { s with effdy := e }) :=
  ⟨⟨fun _ _ h => h, fun n l e => absurd e (h n l), fun _ _ h => h, fun _ _ _ h => h, fun _ _ h => h, fun _ _ h => h, fun _ _ h => h⟩, ⟨rfl, rfl, rfl, rfl⟩⟩

theorem good_rEffdy (ex : List String) (s : PX K) : Good ex s (rEffdy ex s) := by
  unfold rEffdy
  split
  · rename_i h
    have h' : "effective_dy" ∉ ex → ∀ l, s.effdy ≠ .array l := by
      intro n l e
      rcases h with h | h
      · rw [h] at e; cases e
      · exact n h
    unfold freshEff
    split
    · split
      · exact good_eff _ _ _ h' _
      · split
        · exact good_id _ _ _
        · exact good_eff _ _ _ h' _
    · exact good_id _ _ _
  · split
    · rename_i v x h1 h2
      split
      · exact good_eff _ _ _ (by intro _ l e; rw [h1] at e; cases e) _
      · exact good_id _ _ _
    · split <;> exact good_id _ _ _
    · exact good_id _ _ _

theorem good_rPf (D : Defaults K) (ex : List String) (s : PX K) : Good ex s (rPf D ex s) := by
  unfold rPf
  split
  · rename_i h
    split
    · exact good_id _ _ _
    · split
      · exact good_id _ _ _
      · refine ⟨⟨fun _ _ h => h, fun _ _ h => h, fun n v e => ?_, fun _ _ _ h => h, fun _ _ h => h, fun _ _ h => h, fun _ _ h => h⟩, ⟨rfl, rfl, rfl, rfl⟩⟩
        rw [e] at h
        simp [n] at h
  · exact good_id _ _ _

theorem good_rng (ex : List String) (s : PX K) (v : Option (Option K × Option K)) (h : "rng" ∉ ex → ∀ a b, s.rng ≠ some (some a, some b)) (r : Res Unit) :
    Good ex s (r, { s with rng := v }) :=
  ⟨⟨fun _ _ h => h, fun _ _ h => h, fun _ _ h => h, fun n a b e => absurd e (h n a b), fun _ _ h => h, fun _ _ h => h, fun _ _ h => h⟩, ⟨rfl, rfl, rfl, rfl⟩⟩

theorem good_rRng (ex : List String) (s : PX K) : Good ex s (rRng ex s) := by
  unfold rRng
  split
  · rename_i h
    split
    · exact good_id _ _ _
    · refine good_rng _ _ _ ?_ _
      intro n a b e
      rw [e] at h
      simp [n] at h
  · split
    · exact good_id _ _ _
    · rename_i h
      split
      · exact good_id _ _ _
      · refine good_rng _ _ _ ?_ _
        intro n a b e
        exact h a b e

theorem good_base (ex : List String) (s : PX K) (v : Option Base) (h : "baseline" ∉ ex → ∀ i, s.baseline ≠ some (.inst i)) (r : Res Unit) :
    Good ex s (r, { s with baseline := v }) :=
  ⟨⟨fun _ _ h => h, fun _ _ h => h, fun _ _ h => h, fun _ _ _ h => h, fun n i e => absurd e (h n i), fun _ _ h => h, fun _ _ h => h⟩, ⟨rfl, rfl, rfl, rfl⟩⟩

theorem good_est (D : Defaults K) (ex : List String) (s : PX K) : Good ex s (estBaseline D s) := by
  unfold estBaseline
  split
  · rename_i f h
    have h' : "baseline" ∉ ex → ∀ i, s.baseline ≠ some (.inst i) := by
      intro _ i e
      rw [h] at e; cases e
    split
    · exact good_id _ _ _
    · split
      · exact good_base _ _ _ h' _
      · exact good_base _ _ _ h' _
      · exact good_base _ _ _ h' _
      · exact good_id _ _ _
  · exact good_id _ _ _

theorem good_rBaseline (D : Defaults K) (ex : List String) (s : PX K) : Good ex s (rBaseline D ex s) := by
  unfold rBaseline
  split
  · rename_i h
    refine good_base _ _ _ ?_ _
    intro n i e
    rw [e] at h
    simp [n] at h
  · exact good_id _ _ _

variable [IsStrictOrderedRing K]

theorem good_rRest (D : Defaults K) (ex : List String) (s : PX K) : Good ex s (rRest D ex s) := by
  rw [rRest_eq]
  refine ⟨⟨fun _ _ h => h, fun _ _ h => h, fun _ _ h => h, fun _ _ _ h => h, fun _ _ h => h, fun n v e => ?_, fun n v e => ?_⟩, ⟨rfl, rfl, rfl, rfl⟩⟩
  · simp [unlessNamed, n, e]
  · simp [unlessNamed, n, e]

theorem good_resetvars (D : Defaults K) (ex : List String) (s : PX K) : Good ex s (resetvars D ex s) := by
  unfold resetvars
  exact good_andThen (good_andThen (good_andThen (good_andThen (good_andThen (good_andThen (good_rCres ex s) (good_rEffdy ex))
    (good_rPf D ex)) (good_rRng ex)) (good_est D ex)) (good_rBaseline D ex)) (good_rRest D ex)

theorem good_defaultvars (D : Defaults K) (s : PX K) : Good [] s (defaultvars D s) := by
  rw [← c91_base_nil]
  exact good_resetvars D [] s

/-- What a change of the variables keeps. -/
def PGood (ex : List String) (s : PPX K) (r : Res Unit × PPX K) : Prop :=
  PKept ex s r.2 ∧ SameData s.base r.2.base ∧ r.2.qmaxReported = s.qmaxReported ∧ r.2.qmaxFromData = s.qmaxFromData

theorem good_presetvars (pi : K) (D : Defaults K) (ex : List String) (s : PPX K) : PGood ex s (presetvars pi D ex s) := by
  obtain ⟨N, e, m1, m2, m3, m4⟩ := presetvars_eq pi D ex s _ (preferred_forget ex s)
  generalize hq : preferredQmax (pforget ex s) = q at e m3
  have hg := good_resetvars D N (midPdf pi q D ex s.base)
  have hN : ∀ a ∈ ["cres", "effective_dy", "pf", "rng", "baseline", "error_method", "initial_peaks"], a ∈ N →
      a ∈ (if "dg" ∈ ex then "effective_dy" :: ex else ex) := by
    intro a ha hm
    have up : a ∈ ex → a ∈ (if "dg" ∈ ex then "effective_dy" :: ex else ex) := by
      intro h
      split
      · exact List.mem_cons_of_mem _ h
      · exact h
    simp only [List.mem_cons, List.not_mem_nil, or_false] at ha
    rcases ha with rfl | rfl | rfl | rfl | rfl | rfl | rfl
    · exact up (m3.1 hm).1
    · rcases m2.1 hm with h | h
      · exact up h
      · rw [if_pos h]; exact List.mem_cons_self
    · exact up (List.count_pos_iff.1 (by have := m4.1 hm; omega))
    · exact up ((m1 _ (by simp)).1 hm)
    · exact up ((m1 _ (by simp)).1 hm)
    · exact up ((m1 _ (by simp)).1 hm)
    · exact up ((m1 _ (by simp)).1 hm)
  have hmid : ∀ ex', (∀ a, a ∈ ex → a ∈ ex') → Kept ex' s.base (midPdf pi q D ex s.base) := by
    intro ex' hsub
    unfold midPdf
    refine ⟨fun n v e => ?_, fun _ _ h => h, fun n v e => ?_, fun _ _ _ h => h, fun _ _ h => h, fun _ _ h => h, fun _ _ h => h⟩
    · have : "cres" ∉ ex := fun h => n (hsub _ h)
      simp [e, this]
    · have : "pf" ∉ ex := fun h => n (hsub _ h)
      simp [e, unlessNamed, this]
  have hsub : ∀ a, a ∈ ex → a ∈ (if "dg" ∈ ex then "effective_dy" :: ex else ex) := by
    intro a h
    split
    · exact List.mem_cons_of_mem _ h
    · exact h
  have hk : Kept (if "dg" ∈ ex then "effective_dy" :: ex else ex) (midPdf pi q D ex s.base) (resetvars D N (midPdf pi q D ex s.base)).2 :=
    ⟨fun n => hg.1.cres (fun m => n (hN _ (by simp) m)), fun n => hg.1.effdy (fun m => n (hN _ (by simp) m)),
      fun n => hg.1.pf (fun m => n (hN _ (by simp) m)), fun n => hg.1.rng (fun m => n (hN _ (by simp) m)),
      fun n => hg.1.baseline (fun m => n (hN _ (by simp) m)), fun n => hg.1.errorMethod (fun m => n (hN _ (by simp) m)),
      fun n => hg.1.initialPeaks (fun m => n (hN _ (by simp) m))⟩
  rw [e]
  refine ⟨⟨(hmid _ hsub).trans hk, ?_, ?_, ?_, ?_⟩, ⟨hg.2.x, hg.2.y, hg.2.dx, hg.2.dy⟩, rfl, rfl⟩
  · intro n v hv
    rw [← hq]
    simp [preferredQmax, pforget, unlessNamed, n, hv]
  · intro n v hv; simp [unlessNamed, n, hv]
  · intro n v hv; simp [unlessNamed, n, hv]
  · intro n v hv; simp [unlessNamed, n, hv]

theorem good_pdefaultvars (pi : K) (D : Defaults K) (s : PPX K) : PGood [] s (pdefaultvars pi D s) := by
  rw [← c91_pdf_nil]
  exact good_presetvars pi D [] s

end

end Verif.Parts.History
