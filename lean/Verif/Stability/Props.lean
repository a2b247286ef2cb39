import Verif.Stability.Model
import Verif.PdfExtract.Example

/-!
# C80: `PeakStability`
-/

set_option linter.unusedSectionVars false

namespace Verif.Parts.Stability

open Verif.Py Verif.Extraction Verif.Pdf Verif.Parts.Extract Verif.Parts.ModelCluster Verif.Parts.PdfExtract

variable {K : Type} [Field K] [LinearOrder K] [IsStrictOrderedRing K]

/-! ### Specification -/

/-- The variables with another `effective_dy`. -/
def withEff (s : PPX K) (v : EffDy K) : PPX K := { s with base := { s.base with effdy := v } }

/-- What extractions may do to objects: only parameter values of baselines change. -/
structure Mild (H H' : Heap K) : Prop where
  peaks : H'.peaks = H.peaks
  funcs : H'.funcs = H.funcs
  base : ∀ b, SamePeak (H'.base b) (H.base b)

/-- The effects of extractions of complete data are mild.  (Those of the code are: `code_tamed` in `Repeat/Stability.lean`.) -/
def Tamed (D : Defaults K) (A : Effects K) : Prop :=
  ∀ (o : PObj K) x y, o.heap.peaks D.noPeaks = [] → Ready o.vars.base x y → (∀ v, o.vars.supersample = some v → 0 < v) → Mild o.heap (A.heap o)

/-- The entry is the result of an extraction of the user's data with the user's variables, but constant uncertainty `e`. -/
def Ran (W : World K) (S : Sampler K) (D : Defaults K) (n : ℕ) (u : PPX K) (H : Heap K) (x : List K) (e : K) (en : Entry K)
    (c : Cluster K) : Prop :=
  0 < e ∧ en.e = e ∧ en.model = c.model ∧
  (∃ o o', extract W S D n o = some (.ok (), o') ∧ o.vars.base.effdy = .array (x.map (fun _ => e)) ∧ o'.extracted = some c) ∧
  (∃ P, From D (withEff u (.scalar e)) P ∧ PdfExtract.Outcome W S H P (x.map (fun _ => e)) c) ∧
  ∃ a b, c.r.head? = some a ∧ c.r.getLast? = some b ∧ en.dr = (b - a) / ((c.r.length : K) - 1)

/-! ### Lemmas -/

theorem psetvars_eff (pi : K) (D : Defaults K) (s : PPX K) (v : EffDy K) :
    psetvars pi D s [.base (.effective_dy v)] = pdefaultvars pi D (withEff s v) := rfl

theorem ready_withEff {s : PPX K} {x y : List K} (h : Ready s.base x y) {v : EffDy K}
    (hv : ∀ e, v = .array e → e.length = x.length) : Ready (withEff s v).base x y :=
  ⟨h.hasx, h.hasy, h.hasdy, hv, h.inc, h.leny⟩

theorem defaultvars_set {D : Defaults K} {s t : PX K} (h : defaultvars D s = (.ok (), t)) :
    (∃ c, t.cres = some c) ∧ ∃ b, t.baseline = some (.inst b) := by
  unfold defaultvars at h
  obtain ⟨s5, h, k6⟩ := andThen_ok h
  obtain ⟨s4, h, k5⟩ := andThen_ok h
  obtain ⟨s3, h, k4⟩ := andThen_ok h
  obtain ⟨s2, h, k3⟩ := andThen_ok h
  obtain ⟨s1, k1, k2⟩ := andThen_ok h
  obtain ⟨v1, rfl, -⟩ := defCres_frame k1
  obtain ⟨v2, rfl, -⟩ := defEffdy_frame k2
  obtain ⟨v3, rfl, -⟩ := defPf_frame k3
  obtain ⟨v4, rfl, -⟩ := defRng_frame k4
  have hb : ∃ b, s5.baseline = some (.inst b) := by
    unfold defBaseline at k5
    split at k5
    · rename_i b hb
      simp only [Prod.mk.injEq, true_and] at k5
      exact ⟨b, by rw [← k5]; exact hb⟩
    · simp only [Prod.mk.injEq, true_and] at k5
      exact ⟨_, by rw [← k5]⟩
    · split at k5
      · simp at k5
      · split at k5
        · simp only [Prod.mk.injEq, true_and] at k5
          exact ⟨_, by rw [← k5]⟩
        · simp only [Prod.mk.injEq, true_and] at k5
          exact ⟨_, by rw [← k5]⟩
        · simp only [Prod.mk.injEq, true_and] at k5
          exact ⟨_, by rw [← k5]⟩
        · simp at k5
  obtain ⟨v5, rfl, -⟩ := defBaseline_frame k5
  simp only [Prod.mk.injEq, true_and] at k6
  subst k6
  exact ⟨⟨_, rfl⟩, hb⟩

/-- All variables are set after `defaultvars`. -/
theorem has_of {pi : K} {D : Defaults K} {s t : PPX K} {x y : List K} (hr : Ready s.base x y) (hx : x ≠ [])
    (h : pdefaultvars pi D s = (.ok (), t)) : ∃ P, Has t P := by
  obtain ⟨h1, h2, h3, h4, h5⟩ := pdefault_ok h
  have hd := defaulted h5
  obtain ⟨⟨c, hc⟩, b, hb⟩ := defaultvars_set h5
  obtain ⟨x0, h0⟩ : ∃ a, x.head? = some a := ⟨_, List.head?_eq_some_head hx⟩
  obtain ⟨x1, hl⟩ : ∃ a, x.getLast? = some a := ⟨_, List.getLast?_eq_some_getLast hx⟩
  exact ⟨⟨x, y, t.base.effdy, _, _, x0, x1, _, _, _, _, c, _, _, b, _⟩,
    ⟨hd.x.trans hr.hasx, hd.y.trans hr.hasy, rfl, hd.rng x x0 x1 hr.hasx h0 hl, h0, hl, h1, h2, h3, h4, hc, hd.em, hd.pf _ rfl, hb, hd.ip⟩⟩

theorem ready_of {pi : K} {D : Defaults K} {s t : PPX K} {x y : List K} (hr : Ready s.base x y)
    (h : pdefaultvars pi D s = (.ok (), t)) : Ready t.base x y := by
  obtain ⟨-, -, -, -, h5⟩ := pdefault_ok h
  have hd := defaulted h5
  obtain ⟨dy, hdy, hl⟩ := hr.hasdy
  exact ⟨hd.x.trans hr.hasx, hd.y.trans hr.hasy, ⟨dy, hd.dy.trans hdy, hl⟩,
    hd.eff x y dy hr.hasx hr.hasy hdy hl hr.heff, hr.inc, hr.leny⟩

/-- `v` is `u`, or `u` with the defaults filled in (and some `effective_dy`). -/
def Descends (D : Defaults K) (u v : PPX K) : Prop := v = u ∨ ∃ P0 a0, Has v P0 ∧ From D (withEff u a0) P0

theorem Descends.from_ {D : Defaults K} {u v : PPX K} {a : EffDy K} (ha : a ≠ .unset) {P : Par K}
    (h : Descends D u v) (hP : From D (withEff v a) P) : From D (withEff u a) P := by
  rcases h with rfl | ⟨P0, a0, hv, h0⟩
  · exact hP
  have hx : P.x = P0.x := by
    have := hP.x
    simp only [withEff] at this
    rw [hv.x, Option.some.injEq] at this
    exact this.symm
  have hy : P.y = P0.y := by
    have := hP.y
    simp only [withEff] at this
    rw [hv.y, Option.some.injEq] at this
    exact this.symm
  have hx0 : P.x0 = P0.x0 := by
    have := hP.first
    rw [hx, hv.first, Option.some.injEq] at this
    exact this.symm
  have hx1 : P.x1 = P0.x1 := by
    have := hP.last
    rw [hx, hv.last, Option.some.injEq] at this
    exact this.symm
  have hq : P.q = P0.q := by
    rw [hP.q]
    unfold preferredQmax withEff
    simp only [hv.q]
    rfl
  have hab : (P.a, P.b) = (P0.a, P0.b) := by
    rw [hP.range]
    unfold rangeOf withEff
    simp only [hv.rng]
    rfl
  refine ⟨?_, ?_, hP.first, hP.last, ?_, hP.eff, hP.eff1, fun _ h => absurd h ha, fun _ h => absurd h ha, ?_, ?_, ?_, ?_, ?_, ?_, ?_, ?_, ?_⟩
  · rw [hx]; exact h0.x
  · rw [hy]; exact h0.y
  · rw [hab, h0.range, hx0, hx1]; rfl
  · rw [hq, h0.q]; rfl
  · have := hP.nyquist
    simp only [withEff] at this
    rw [hv.nyquist] at this
    rw [this, hq]; exact h0.nyquist
  · have := hP.scale
    simp only [withEff] at this
    rw [hv.scale] at this
    rw [this]; exact h0.scale
  · have := hP.ss
    simp only [withEff] at this
    rw [hv.ss] at this
    rw [this]; exact h0.ss
  · have := hP.em
    simp only [withEff] at this
    rw [hv.em] at this
    rw [this]; exact h0.em
  · have := hP.ip
    simp only [withEff] at this
    rw [hv.ip] at this
    rw [this]; exact h0.ip
  · have := hP.pf
    simp only [withEff] at this
    rw [hv.pf] at this
    rw [this]; exact h0.pf
  · intro b hb
    rw [hP.bl P0.bl hv.bl]
    exact h0.bl b hb
  · intro hb
    rw [hP.bl P0.bl hv.bl]
    exact h0.bl0 hb

/-- The variables determine what is used, up to the clustering resolution and an estimated baseline. -/
theorem from_unique {D : Defaults K} {u : PPX K} {a a' : EffDy K} {P Q : Par K} (hP : From D (withEff u a) P)
    (hQ : From D (withEff u a') Q) : P.x = Q.x ∧ P.y = Q.y ∧ P.x0 = Q.x0 ∧ P.x1 = Q.x1 ∧ P.a = Q.a ∧ P.b = Q.b ∧
    P.q = Q.q ∧ P.nyquist = Q.nyquist ∧ P.scale = Q.scale ∧ P.ss = Q.ss ∧ P.em = Q.em := by
  have hx : P.x = Q.x := Option.some.inj (hP.x.symm.trans hQ.x)
  have hy : P.y = Q.y := Option.some.inj (hP.y.symm.trans hQ.y)
  have h0 : P.x0 = Q.x0 := Option.some.inj (hP.first.symm.trans (by rw [hx]; exact hQ.first))
  have h1 : P.x1 = Q.x1 := Option.some.inj (hP.last.symm.trans (by rw [hx]; exact hQ.last))
  have hab : (P.a, P.b) = (Q.a, Q.b) := by rw [hP.range, hQ.range, h0, h1]; rfl
  have hq : P.q = Q.q := hP.q.trans hQ.q.symm
  rw [Prod.mk.injEq] at hab
  refine ⟨hx, hy, h0, h1, hab.1, hab.2, hq, ?_, hP.scale.trans hQ.scale.symm, hP.ss.trans hQ.ss.symm,
    hP.em.trans hQ.em.symm⟩
  rw [hP.nyquist, hQ.nyquist, hq]; rfl

theorem mild_refl (H : Heap K) : Mild H H := ⟨rfl, rfl, fun _ => ⟨rfl, rfl, rfl, rfl, Iff.rfl, rfl⟩⟩

theorem Mild.trans {H H' H'' : Heap K} (h : Mild H H') (h' : Mild H' H'') : Mild H H'' :=
  ⟨h'.peaks.trans h.peaks, h'.funcs.trans h.funcs, fun b => samePeak_trans (h'.base b) (h.base b)⟩

theorem outcome_mild {S : Sampler K} {H H' : Heap K} {P : Par K} {eff : List K} {c : Cluster K} (h : Mild H H')
    (ho : PdfExtract.Outcome W S H' P eff c) : PdfExtract.Outcome W S H P eff c := by
  have hs : ∀ p, IsSupplied W H' P p ↔ IsSupplied W H P p := by
    intro p; unfold IsSupplied; rw [h.funcs]
  have hsi : Single W H' P c.model → Single W H P c.model := by
    rintro ⟨p, hp, e⟩; exact ⟨p, (hs p).1 hp, e⟩
  refine ⟨?_, ho.whole, ho.method, by rw [← h.funcs]; exact ho.funcs, ?_, ?_, by rw [← h.peaks]; exact ho.hard⟩
  · obtain ⟨k, h1, h2⟩ := ho.data
    exact ⟨k, h1, h2.imp id hsi⟩
  · obtain ⟨b, h1, h2⟩ := ho.base
    exact ⟨b, h1, samePeak_trans h2 (h.base _)⟩
  · rcases ho.peaks with ⟨m, h1, h2⟩ | h1
    · exact Or.inl ⟨m, fun p hp => (hs p).1 (h1 p hp), by rw [← h.peaks]; exact h2⟩
    · exact Or.inr (hsi h1)

variable {W : World K} {S : Sampler K} {D : Defaults K}

/-- `extract` on an object whose variables are all set. -/
theorem extract_settled (hS : Sane W) (hE : Estimates W) (hU : Uniform S) (hR : Ripples S) {n : ℕ} {o o' : PObj K}
    {u : Res Unit} (hN : o.heap.peaks D.noPeaks = []) {P : Par K} (hP : Has o.vars P) (he : SettledEff P.eff)
    (hss : 0 < P.ss) (hinc : P.x.Pairwise (· < ·)) (hy : P.y.length = P.x.length)
    (hl : ∀ e, P.eff = .array e → e.length = P.x.length) (h : extract W S D n o = some (u, o')) :
    o'.vars = o.vars ∧ (∀ e, u = .error e → o'.extracted = none) ∧
    (u = .ok () → ∃ eff c, P.eff = .array eff ∧ o'.extracted = some c ∧ PdfExtract.Outcome W S o.heap P eff c) := by
  unfold extract at h
  rw [pdefault_fix hP he] at h
  simp only at h
  rw [Option.map_eq_some_iff] at h
  obtain ⟨r, hc, h⟩ := h
  unfold leave at h
  split at h
  · simp only [Prod.mk.injEq] at h
    obtain ⟨rfl, rfl⟩ := h
    exact ⟨rfl, fun _ _ => rfl, fun h => by simp at h⟩
  · rename_i c
    simp only [Prod.mk.injEq] at h
    obtain ⟨rfl, rfl⟩ := h
    obtain ⟨eff, e1, e2⟩ := extracted_ok hS hE hU hR hN hP he hss hinc hy hl hc
    exact ⟨rfl, fun _ h => by simp at h, fun _ => ⟨eff, c, e1, rfl, e2⟩⟩

theorem spacing_ok {c : Cluster K} (hw : ∃ sl, c.slice = some sl ∧ sl.get c.r = c.r) {dr : K} (h : spacing c = .ok dr) :
    ∃ a b, c.r.head? = some a ∧ c.r.getLast? = some b ∧ dr = (b - a) / ((c.r.length : K) - 1) := by
  obtain ⟨sl, h1, h2⟩ := hw
  unfold spacing at h
  rw [h1] at h
  simp only [h2] at h
  split at h
  · rename_i a b ha hb
    simp only [Except.ok.injEq] at h
    exact ⟨a, b, ha, hb, h.symm⟩
  · simp at h

/-- The state between extractions. -/
structure Between (D : Defaults K) (u : PPX K) (H : Heap K) (x y : List K) (s : Stab K) : Prop where
  ready : Ready s.ppe.vars.base x y
  from_ : Descends D u s.ppe.vars
  heap : Mild H s.ppe.heap

/-- One extraction. -/
theorem runOne_ok (hS : Sane W) (hE : Estimates W) (hU : Uniform S) (hR : Ripples S) {A : Effects K}
    (hA : Tamed D A) {n : ℕ} {u : PPX K} {H : Heap K} {x y : List K} (hN : H.peaks D.noPeaks = [])
    (hx : x ≠ []) (hss : ∀ v, u.supersample = some v → 0 < v) {e : K} {s s' : Stab K} {r : Res Unit}
    (hb : Between D u H x y s) (h : runOne W S D A n e s = some (r, s')) :
    (∀ err, r = .error err → s'.results = s.results) ∧
    (r = .ok () → Between D u H x y s' ∧ s'.current = s.current ∧
      ∃ en c, s'.results = s.results ++ [en] ∧ Ran W S D n u H x e en c ∧ s'.ppe.extracted = some c ∧
        (∃ o, en.bl = refOf (A.shares o) s'.ppe.vars c)) := by
  unfold runOne at h
  rw [psetvars_eff] at h
  split at h
  · simp only [Option.some.injEq, Prod.mk.injEq] at h
    obtain ⟨rfl, rfl⟩ := h
    exact ⟨fun _ _ => rfl, fun h => by simp at h⟩
  · rename_i v hv
    have hr' : Ready (withEff s.ppe.vars (.scalar e)).base x y := ready_withEff hb.ready (by intro e' h'; simp at h')
    have hrt := ready_of hr' hv
    obtain ⟨P, hP⟩ := has_of hr' hx hv
    obtain ⟨hfrom, hPx, hPy, hl⟩ := from_of hr' hv hP
    have hfu := hb.from_.from_ (by simp) hfrom
    have he : SettledEff P.eff := by rw [← hP.eff]; exact pdefault_settled hv
    have hss' : 0 < P.ss := by
      rw [hfu.ss]
      cases hv : (withEff u (.scalar e)).supersample with
      | none => simp
      | some v => exact hss v hv
    simp only at h
    split at h
    · simp at h
    · simp only [Option.some.injEq, Prod.mk.injEq] at h
      obtain ⟨rfl, rfl⟩ := h
      exact ⟨fun _ _ => rfl, fun h => by simp at h⟩
    · rename_i o' ho'
      obtain ⟨hvars, -, hok⟩ := extract_settled hS hE hU hR (by simp only [clearcalc]; rw [hb.heap.peaks]; exact hN)
        hP he hss' (by rw [hPx]; exact hr'.inc) (by rw [hPx, hPy]; exact hr'.leny) (by rw [hPx]; exact hl) ho'
      obtain ⟨eff, c, e1, e2, e3⟩ := hok rfl
      simp only [clearcalc] at e3 hvars
      have hpos : 0 < e ∧ eff = x.map (fun _ => e) := by
        have := hfu.eff1 e rfl
        rw [e1] at this
        by_cases h0 : 0 < e
        · rw [if_pos h0, EffDy.array.injEq, hPx] at this
          exact ⟨h0, this⟩
        · rw [if_neg h0] at this; simp at this
      simp only [Option.some.injEq] at h
      unfold record at h
      simp only [e2] at h
      cases hsp : spacing c with
      | error err =>
        rw [hsp] at h
        simp only [Prod.mk.injEq] at h
        obtain ⟨rfl, rfl⟩ := h
        exact ⟨fun _ _ => rfl, fun h => by simp at h⟩
      | ok dr =>
        rw [hsp] at h
        simp only [Prod.mk.injEq] at h
        obtain ⟨rfl, rfl⟩ := h
        refine ⟨fun _ h => by simp at h, fun _ => ⟨⟨?_, ?_, ?_⟩, rfl, _, c, rfl, ?_, rfl, _, rfl⟩⟩
        · simp only [hvars]; exact hrt
        · simp only [hvars]; exact Or.inr ⟨P, _, hP, hfu⟩
        · exact hb.heap.trans (hA { clearcalc s.ppe with vars := v } x y (by simp only [clearcalc]; rw [hb.heap.peaks]; exact hN) hrt (fun w hw => by
            simp only [hP.ss, Option.some.injEq] at hw
            rw [← hw]; exact hss'))
        · refine ⟨hpos.1, rfl, rfl, ⟨_, _, ho', by simp only; rw [hP.eff, e1, hpos.2], e2⟩, ⟨P, hfu, ?_⟩, spacing_ok e3.whole hsp⟩
          rw [← hpos.2]
          exact outcome_mild hb.heap e3

/-- The loop. -/
theorem runLoop_ok (hS : Sane W) (hE : Estimates W) (hU : Uniform S) (hR : Ripples S) {A : Effects K}
    (hA : Tamed D A) {n : ℕ} {u : PPX K} {H : Heap K} {x y : List K} (hN : H.peaks D.noPeaks = [])
    (hx : x ≠ []) (hss : ∀ v, u.supersample = some v → 0 < v) : ∀ {err : List K} {s s' : Stab K} {r : Res Unit},
    Between D u H x y s → runLoop W S D A n err s = some (r, s') →
    ∃ new, s'.results = s.results ++ new ∧
      List.Forall₂ (fun e en => ∃ c, Ran W S D n u H x e en c) (err.take new.length) new ∧
      (r = .ok () → new.length = err.length ∧ Between D u H x y s' ∧ s'.current = s.current) ∧
      (∀ e, r = .error e → new.length < err.length) := by
  intro err
  induction err with
  | nil =>
    intro s s' r hb h
    simp only [runLoop, Option.some.injEq, Prod.mk.injEq] at h
    obtain ⟨rfl, rfl⟩ := h
    exact ⟨[], by simp, by simp, fun _ => ⟨rfl, hb, rfl⟩, fun _ h => by simp at h⟩
  | cons e es ih =>
    intro s s' r hb h
    rw [runLoop] at h
    split at h
    · simp at h
    · rename_i x' s1 h1
      simp only [Option.some.injEq, Prod.mk.injEq] at h
      obtain ⟨rfl, rfl⟩ := h
      have := (runOne_ok hS hE hU hR hA hN hx hss hb h1).1 _ rfl
      exact ⟨[], by simp [this], by simp, fun h => by simp at h, fun _ _ => by simp⟩
    · rename_i s1 h1
      obtain ⟨hb1, hc1, en, c, hres, hran, -, -⟩ := (runOne_ok hS hE hU hR hA hN hx hss hb h1).2 rfl
      obtain ⟨new, h2, h3, h4, h5⟩ := ih hb1 h
      refine ⟨en :: new, by rw [h2, hres]; simp, ?_, ?_, ?_⟩
      · simp only [List.length_cons, List.take_succ_cons]
        exact List.Forall₂.cons ⟨c, hran⟩ h3
      · intro hr
        obtain ⟨k1, k2, k3⟩ := h4 hr
        exact ⟨by simp [k1], k2, k3.trans hc1⟩
      · intro e' hr
        have := h5 e' hr
        simp only [List.length_cons]
        omega

/-- `a` is `l[i]`: element `k` for `i = k`, element `k` from the end for `i = -k - 1`. -/
def At {α : Type} (l : List α) (i : ℤ) (a : α) : Prop :=
  (∃ k : ℕ, i = k ∧ l[k]? = some a) ∨ ∃ k : ℕ, i = -(k : ℤ) - 1 ∧ l.reverse[k]? = some a

theorem pyGet_at {α : Type} (l : List α) (i : ℤ) (a : α) : pyGet l i = some a ↔ At l i a := by
  unfold pyGet At
  split
  · rename_i h0
    constructor
    · intro h; exact Or.inl ⟨i.toNat, by omega, h⟩
    · rintro (⟨k, rfl, h⟩ | ⟨k, rfl, -⟩)
      · simpa using h
      · omega
  · rename_i h0
    constructor
    · intro h
      split at h
      · rename_i h1
        refine Or.inr ⟨(-i - 1).toNat, by omega, ?_⟩
        rw [List.getElem?_reverse (by omega), ← h]
        congr 1
        omega
      · simp at h
    · rintro (⟨k, rfl, -⟩ | ⟨k, rfl, h⟩)
      · omega
      · have hk : k < l.length := by
          have := (List.getElem?_eq_some_iff.1 h).1
          simpa using this
        rw [if_pos (by omega)]
        rw [List.getElem?_reverse hk] at h
        rw [← h]
        congr 1
        omega

/-- The cluster that `setcurrent` makes for the entry: its peaks and its baseline as it is now, on the user's data
resampled at the interval of the entry, with constant uncertainty. -/
structure Active (S : Sampler K) (H : Heap K) (P : Par K) (x : List K) (en : Entry K) (c : Cluster K) : Prop where
  data : Sampled S P (x.map (fun _ => en.e)) en.dr c.r c.y c.err
  model : c.model = en.model
  base : c.baseline = en.bl.get H
  whole : ∃ sl, c.slice = some sl ∧ sl.get c.r = c.r
  method : c.method = P.em
  funcs : c.funcs = H.funcs P.pf

/-- **C80.** `run(err)` extracts at each uncertainty in turn, with the user's data and variables; the results are, in
order, those of these extractions — of all of them if it returns, of the ones before the failing one if it raises.  In
particular it raises for an uncertainty that is not positive. -/
theorem c80_run (hS : Sane W) (hE : Estimates W) (hU : Uniform S) (hR : Ripples S) (A : Effects K)
    (hA : Tamed D A) (n : ℕ) (s s' : Stab K) (x y : List K) (hr : Ready s.ppe.vars.base x y)
    (hx : x ≠ []) (hN : s.ppe.heap.peaks D.noPeaks = []) (hss : ∀ v, s.ppe.vars.supersample = some v → 0 < v)
    (err : List K) (r : Res Unit) (h : run W S D A n err s = some (r, s')) :
    List.Forall₂ (fun e en => ∃ c, Ran W S D n s.ppe.vars s.ppe.heap x e en c) (err.take s'.results.length) s'.results ∧
    (r = .ok () → s'.results.length = err.length ∧ ∀ e ∈ err, 0 < e) ∧
    (∀ e, r = .error e → s'.results.length < err.length) := by
  unfold run at h
  obtain ⟨new, h1, h2, h3, h4⟩ := runLoop_ok hS hE hU hR hA hN hx hss (s := { s with results := [] })
    ⟨hr, Or.inl rfl, mild_refl _⟩ h
  simp only [List.nil_append] at h1
  rw [h1]
  refine ⟨h2, fun hr => ⟨(h3 hr).1, ?_⟩, h4⟩
  have hl := (h3 hr).1
  rw [hl, List.take_length] at h2
  intro e he
  obtain ⟨i, hi, rfl⟩ := List.getElem_of_mem he
  obtain ⟨c, hc⟩ := h2.get (i := i) hi (by omega)
  exact hc.1

theorem activate_ok {en : Entry K} {o o' : PObj K} {x y : List K} (hr : Ready o.vars.base x y) (hx : x ≠ [])
    (h : activate W S D en o = (.ok (), o')) : ∃ P c, From D (withEff o.vars (.array (x.map (fun _ => en.e)))) P ∧
      o'.extracted = some c ∧ o'.heap = o.heap ∧ Active S o.heap P x en c := by
  unfold activate at h
  rw [hr.hasx] at h
  simp only [psetvars_eff] at h
  split at h
  · simp at h
  · rename_i v hv
    have hr' : Ready (withEff o.vars (.array (x.map (fun _ => en.e)))).base x y :=
      ready_withEff hr (by intro e' h'; simp only [EffDy.array.injEq] at h'; rw [← h']; simp)
    obtain ⟨P, hP⟩ := has_of hr' hx hv
    obtain ⟨hfrom, hPx, hPy, hl⟩ := from_of hr' hv hP
    have he : SettledEff P.eff := by rw [← hP.eff]; exact pdefault_settled hv
    split at h
    · simp at h
    · rename_i c hc
      simp only [Prod.mk.injEq, true_and] at h
      subst h
      unfold clusterFor at hc
      simp only [complete_of hP, resampledata_eq hP he] at hc
      obtain ⟨P', e1, hc⟩ := bind_ok hc
      simp only [Except.ok.injEq] at e1
      subst e1
      obtain ⟨g, hg, hc⟩ := bind_ok hc
      obtain ⟨eff, e2, hsam⟩ := sampled_ok hg
      have e3 := hfrom.eff _ rfl
      rw [e2, EffDy.array.injEq] at e3
      subst e3
      unfold newCluster at hc
      simp only at hc
      split at hc
      · simp at hc
      · rename_i c' heq
        obtain ⟨b, e, -⟩ := changeSlice_ok heq
        simp only [Except.ok.injEq] at hc
        subst hc
        subst e
        exact ⟨P, _, hfrom, rfl, rfl, ⟨hsam, rfl, rfl, ⟨_, rfl, get_whole g.1⟩, rfl, rfl⟩⟩

theorem setcurrent_some {i : ℤ} {s s' : Stab K} {u : Res Unit} {en : Entry K} (he : pyGet s.results i = some en)
    (h : setcurrent W S D (some i) s = (u, s')) :
    ∃ o, activate W S D en s.ppe = (u, o) ∧ s' = { s with current := some i, ppe := o } := by
  unfold setcurrent at h
  simp only [he] at h
  simp only [Prod.mk.injEq] at h
  exact ⟨_, Prod.ext h.1 rfl, h.2.symm⟩

/-- **C80.** `setcurrent(i)` that returns: `current` is `i`, and the extracted model is that of result `i` (counted from
the end if negative), on the user's data resampled at the interval of that result, with its uncertainty at every point;
nothing else has changed but the variables that had no value. -/
theorem c80_setcurrent (s s' : Stab K) (x y : List K) (hr : Ready s.ppe.vars.base x y) (hx : x ≠ []) (i : ℤ)
    (h : setcurrent W S D (some i) s = (.ok (), s')) :
    ∃ en P c, At s.results i en ∧ From D (withEff s.ppe.vars (.array (x.map (fun _ => en.e)))) P ∧
      s'.ppe.extracted = some c ∧ Active S s.ppe.heap P x en c ∧ s'.current = some i ∧ s'.results = s.results ∧
      s'.ppe.heap = s.ppe.heap := by
  cases he : pyGet s.results i with
  | none => unfold setcurrent at h; simp [he] at h
  | some en =>
    obtain ⟨o, h1, rfl⟩ := setcurrent_some he h
    obtain ⟨P, c, a1, a2, a3, a4⟩ := activate_ok hr hx h1
    exact ⟨en, P, c, (pyGet_at _ _ _).1 he, a1, a2, a4, rfl, rfl, a3⟩

/-- **C80, finding.** An index that is out of range is recorded as the current one before `setcurrent` raises
IndexError; the extraction is as before, so `current` no longer says which model is active. -/
theorem c80_bad_index (s : Stab K) (i : ℤ) (hi : i < -(s.results.length : ℤ) ∨ (s.results.length : ℤ) ≤ i) :
    setcurrent W S D (some i) s = (.error .index, { s with current := some i }) := by
  have : pyGet s.results i = none := by
    unfold pyGet
    split
    · rw [List.getElem?_eq_none]; omega
    · rw [if_neg]; omega
  unfold setcurrent
  simp only [this]

/-- **C80.** `setcurrent(None)` forgets the extracted model. -/
theorem c80_none (s : Stab K) : (setcurrent W S D none s).1 = .ok () ∧ (setcurrent W S D none s).2.current = none ∧
    (setcurrent W S D none s).2.ppe.extracted = none ∧ (setcurrent W S D none s).2.results = s.results ∧
    (setcurrent W S D none s).2.ppe.vars = s.ppe.vars := ⟨rfl, rfl, rfl, rfl, rfl⟩

theorem pyGet_nat {α : Type} (l : List α) (i : ℕ) : pyGet l i = l[i]? := by
  unfold pyGet
  rw [if_pos (by omega)]
  simp

/-- The first data have increasing coordinates. -/
theorem firstData_inc (hU : Uniform S) {P : Par K} {eff r y e : List K} (hinc : P.x.Pairwise (· < ·)) (hss : 0 < P.ss)
    (hq : 0 < P.q) (h : FirstData S P eff r y e) : r.Pairwise (· < ·) := by
  unfold FirstData at h
  rw [if_neg hq.ne'] at h
  split at h
  · rw [h.grid]
    refine hU.inc _ _ _ (div_pos ?_ hss)
    unfold drNyquist
    rw [if_pos hq]
    exact div_pos hU.pi_pos hq
  · rw [h.grid]
    exact hinc.sublist (inRange_sublist _ _ _ _)

theorem head_le_last {r : List K} {a b : K} (h : r.Pairwise (· < ·)) (ha : r.head? = some a) (hb : r.getLast? = some b) :
    a ≤ b := by
  cases r with
  | nil => simp at ha
  | cons v l =>
    simp only [List.head?_cons, Option.some.injEq] at ha
    subst ha
    have := List.mem_of_getLast? hb
    rcases List.mem_cons.1 this with rfl | hm
    · exact le_rfl
    · exact (List.pairwise_cons.1 h).1 b hm |>.le

/-- The interval of resampled data, from their ends and number. -/
theorem sampled_interval (hU : Uniform S) {P : Par K} {eff r y e : List K} {dr a b : K} (hdr : 0 ≤ dr)
    (h : Sampled S P eff dr r y e) (ha : r.head? = some a) (hb : r.getLast? = some b) :
    (b - a) / ((r.length : K) - 1) = dr ∨ (b - a) / ((r.length : K) - 1) = 0 := by
  rcases hdr.eq_or_lt with rfl | hdr
  · have := hU.nonempty _ _ _ _ h.values
    rw [h.grid, hU.zero] at this
    exact absurd rfl this
  obtain ⟨N, e, -⟩ := hU.grid (max P.x0 P.a) (min P.x1 P.b) dr hdr
  rw [h.grid, e] at ha hb ⊢
  obtain ⟨M, rfl⟩ : ∃ M, N = M + 1 := by
    cases N with
    | zero => simp at ha
    | succ M => exact ⟨M, rfl⟩
  rw [List.getLast?_map, List.getLast?_range] at hb
  simp only [Nat.add_eq_zero_iff, one_ne_zero, and_false, if_false, Option.map_some, Option.some.injEq,
    Nat.add_sub_cancel] at hb
  rw [List.head?_map, List.head?_range] at ha
  simp only [Nat.add_eq_zero_iff, one_ne_zero, and_false, if_false, Option.map_some, Option.some.injEq] at ha
  subst ha hb
  simp only [List.length_map, List.length_range]
  push_cast
  by_cases hM : M = 0
  · right; subst hM; simp
  · left
    have : (M : K) ≠ 0 := by exact_mod_cast hM
    rw [show max P.x0 P.a + (M : K) * dr - (max P.x0 P.a + 0 * dr) = M * dr by ring, add_sub_cancel_right,
      mul_div_cancel_left₀ _ this]

/-- **C80.** With a positive qmax and Nyquist sampling, making result `i` of a run the active one restores the data and
the peaks of that extraction exactly: same grid, same values, same uncertainties, same peaks. -/
theorem c80_same_data (hS : Sane W) (hE : Estimates W) (hU : Uniform S) (hR : Ripples S) (A : Effects K)
    (hA : Tamed D A) (n : ℕ) (s s' s'' : Stab K) (x y : List K) (hr : Ready s.ppe.vars.base x y)
    (hx : x ≠ []) (hN : s.ppe.heap.peaks D.noPeaks = []) (hss : ∀ v, s.ppe.vars.supersample = some v → 0 < v)
    (hq : 0 < preferredQmax s.ppe.vars) (hn : s.ppe.vars.nyquist ≠ some false) (err : List K)
    (h : run W S D A n err s = some (.ok (), s')) (i : ℕ) (h' : setcurrent W S D (some i) s' = (.ok (), s'')) :
    ∃ e en c d, err[i]? = some e ∧ s'.results[i]? = some en ∧ Ran W S D n s.ppe.vars s.ppe.heap x e en c ∧
      s''.ppe.extracted = some d ∧ d.r = c.r ∧ d.y = c.y ∧ d.err = c.err ∧ d.model = c.model := by
  unfold run at h
  obtain ⟨new, h1, h2, h3, -⟩ := runLoop_ok hS hE hU hR hA hN hx hss (s := { s with results := [] })
    ⟨hr, Or.inl rfl, mild_refl _⟩ h
  obtain ⟨hl, hb, -⟩ := h3 rfl
  simp only [List.nil_append] at h1
  subst h1
  rw [hl, List.take_length] at h2
  obtain ⟨en, Q, d, k1, k2, k3, k4, -⟩ := c80_setcurrent s' s'' x y hb.ready hx i h'
  rw [← pyGet_at, pyGet_nat] at k1
  obtain ⟨hi, rfl⟩ := List.getElem?_eq_some_iff.1 k1
  have hie : i < err.length := by omega
  obtain ⟨c, hc⟩ := h2.get (i := i) hie hi
  simp only [List.get_eq_getElem] at hc
  refine ⟨err[i], _, c, d, List.getElem?_eq_getElem hie, k1, hc, k3, ?_⟩
  obtain ⟨-, c2, c3, -, ⟨P, c4, c5⟩, a, b, c6, c7, c8⟩ := hc
  have hQ := hb.from_.from_ (by simp) k2
  obtain ⟨u1, u2, u3, u4, u5, u6, u7, u8, u9, u10, u11⟩ := from_unique c4 hQ
  have hPq : 0 < P.q := by rw [c4.q]; exact hq
  have hPn : P.nyquist = true := by
    have := c4.nyquist
    simp only [withEff] at this
    rw [this]
    cases hnn : s.ppe.vars.nyquist with
    | none => simp [hPq]
    | some b =>
      cases b with
      | true => rfl
      | false => exact absurd hnn hn
  have hPss : 0 < P.ss := by
    rw [c4.ss]
    cases hv : (withEff s.ppe.vars (.scalar err[i])).supersample with
    | none => simp
    | some v => exact hss v hv
  have hPx : P.x = x := Option.some.inj (c4.x.symm.trans hr.hasx)
  obtain ⟨k, hk, -⟩ := c5.data
  unfold FinalData at hk
  rw [if_pos ⟨hPq, hPn⟩] at hk
  obtain ⟨r1, y1, e1, a1, b1, f1, f2, f3, f4⟩ := hk
  have hle := head_le_last (firstData_inc hU (by rw [hPx]; exact hr.inc) hPss hPq f1) f2 f3
  have hnn : 0 ≤ (if (b1 - a1) / (S.pi / P.q) ≤ k then 9999 / 10000 * (b1 - a1) / k else S.pi / P.q) := by
    split
    · refine div_nonneg (mul_nonneg (by norm_num) (by linarith)) (Nat.cast_nonneg _)
    · exact (div_pos hU.pi_pos hPq).le
  have hdr : (s'.results[i]).dr = (if (b1 - a1) / (S.pi / P.q) ≤ k then 9999 / 10000 * (b1 - a1) / k else S.pi / P.q) := by
    rcases sampled_interval hU hnn f4 c6 c7 with hd | hd
    · rw [c8, hd]
    · rw [c8, hd]
      have hne := hU.nonempty _ _ _ _ k4.data.values
      rw [k4.data.grid, c8, hd, hU.zero] at hne
      exact absurd rfl hne
  rw [← hdr] at f4
  have gr : d.r = c.r := by rw [k4.data.grid, f4.grid, u3, u4, u5, u6]
  refine ⟨gr, ?_, ?_, by rw [k4.model, c3]⟩
  · have := k4.data.values
    rw [gr, ← u1, ← u2, f4.values, Except.ok.injEq] at this
    exact this.symm
  · rw [k4.data.errors, f4.errors, gr, c2, u7, u8, u9, u1]

/-! ### The baselines -/

theorem runOne_bl {A : Effects K} {n : ℕ} {e : K} {s s' : Stab K}
    (h : runOne W S D A n e s = some (.ok (), s')) : ∃ b en, s'.ppe.vars.base.baseline = some (.inst b) ∧
      (∀ b', s.ppe.vars.base.baseline = some (.inst b') → b = b') ∧ s'.results = s.results ++ [en] ∧
      (∀ b', en.bl = .shared b' → b' = b) := by
  unfold runOne at h
  rw [psetvars_eff] at h
  split at h
  · simp at h
  · rename_i v hv
    obtain ⟨h1, h2, h3, h4, h5⟩ := pdefault_ok hv
    obtain ⟨-, b, hb⟩ := defaultvars_set h5
    have hd := defaulted h5
    have hv' : ∀ o', extract W S D n { clearcalc s.ppe with vars := v } = some (.ok (), o') →
        o'.vars.base.baseline = some (.inst b) := by
      intro o' ho
      unfold extract at ho
      split at ho
      · simp at ho
      · rename_i t ht
        obtain ⟨-, -, -, -, t5⟩ := pdefault_ok ht
        have hd' := defaulted t5
        rw [Option.map_eq_some_iff] at ho
        obtain ⟨r, -, ho⟩ := ho
        unfold leave at ho
        split at ho
        · simp at ho
        · simp only [Prod.mk.injEq, true_and] at ho
          rw [← ho]
          exact hd'.bl b hb
    simp only at h
    split at h
    · simp at h
    · simp at h
    · rename_i o' ho'
      have hb' := hv' o' ho'
      simp only [Option.some.injEq] at h
      unfold record at h
      split at h
      · simp at h
      · rename_i c hc
        split at h
        · simp at h
        · simp only [Prod.mk.injEq, true_and] at h
          subst h
          refine ⟨b, _, hb', ?_, rfl, ?_⟩
          · intro b' hbb
            have := hd.bl b' hbb
            rw [hb] at this
            simpa using this
          · intro b' hbl
            simp only [refOf, hb'] at hbl
            split at hbl
            · cases hbl
            · split at hbl
              · simp only [BRef.shared.injEq] at hbl
                exact hbl.symm
              · cases hbl

theorem runLoop_bl {A : Effects K} {n : ℕ} : ∀ {err : List K} {s s' : Stab K},
    runLoop W S D A n err s = some (.ok (), s') → ∃ b new, s'.results = s.results ++ new ∧
      (∀ b', s.ppe.vars.base.baseline = some (.inst b') → b = b') ∧
      ∀ en ∈ new, ∀ b', en.bl = .shared b' → b' = b := by
  intro err
  induction err with
  | nil =>
    intro s s' h
    simp only [runLoop, Option.some.injEq, Prod.mk.injEq, true_and] at h
    subst h
    cases hb : s.ppe.vars.base.baseline with
    | none => exact ⟨0, [], by simp, by simp, by simp⟩
    | some v =>
      cases v with
      | inst b => exact ⟨b, [], by simp, by simp, by simp⟩
      | _ => exact ⟨0, [], by simp, by simp, by simp⟩
  | cons e es ih =>
    intro s s' h
    rw [runLoop] at h
    split at h
    · simp at h
    · simp at h
    · rename_i s1 h1
      obtain ⟨b, en, a1, a2, a3, a4⟩ := runOne_bl h1
      obtain ⟨b', new, g1, g2, g3⟩ := ih h
      have := g2 b a1
      subst this
      refine ⟨b', en :: new, by rw [g1, a3]; simp, a2, ?_⟩
      intro en' hm
      rcases List.mem_cons.1 hm with rfl | hm
      · exact a4
      · exact g3 en' hm

/-- **C80, finding.** The results of a run do not each have their own baseline: all those that refer to the caller's baseline refer to the same
object, so that afterwards it has the same parameters in all of them, those the last extraction has left.  (`c80_first_changed` in
`Repeat/Stability.lean` shows that this happens; it takes data whose first point is the highest.) -/
theorem c80_baseline_shared (A : Effects K) (n : ℕ) (err : List K) (s s' : Stab K)
    (h : run W S D A n err s = some (.ok (), s')) (en en' : Entry K) (h1 : en ∈ s'.results) (h2 : en' ∈ s'.results)
    (i j : ℕ) (hi : en.bl = .shared i) (hj : en'.bl = .shared j) :
    i = j ∧ en.bl.get s'.ppe.heap = en'.bl.get s'.ppe.heap := by
  obtain ⟨b, new, e1, -, e2⟩ := runLoop_bl h
  simp only [List.nil_append] at e1
  rw [e1] at h1 h2
  have hb := e2 en h1 i hi
  have hb' := e2 en' h2 j hj
  exact ⟨hb.trans hb'.symm, by rw [hi, hj, hb, hb']⟩

/-! ### `animate` -/

theorem setcurrent_frame {i : Option ℤ} {s s' : Stab K} {u : Res Unit} (h : setcurrent W S D i s = (u, s')) :
    s'.results = s.results ∧ s'.current = i := by
  unfold setcurrent at h
  split at h
  · simp only [Prod.mk.injEq] at h
    rw [← h.2]; exact ⟨rfl, rfl⟩
  · split at h
    · simp only [Prod.mk.injEq] at h
      rw [← h.2]; exact ⟨rfl, rfl⟩
    · simp only [Prod.mk.injEq] at h
      rw [← h.2]; exact ⟨rfl, rfl⟩

theorem showAll_frame : ∀ {l : List (Option ℤ)} {s s' : Stab K} {u : Res Unit}, showAll W S D l s = (u, s') →
    s'.results = s.results ∧ (u = .ok () → ∀ a, l.getLast? = some a → s'.current = a ∧
      ∃ t, t.results = s.results ∧ setcurrent W S D a t = (.ok (), s')) := by
  intro l
  induction l with
  | nil =>
    intro s s' u h
    simp only [showAll, Prod.mk.injEq] at h
    rw [← h.2]
    exact ⟨rfl, fun _ a ha => by simp at ha⟩
  | cons i l ih =>
    intro s s' u h
    rw [showAll] at h
    split at h
    · rename_i e s1 h1
      simp only [Prod.mk.injEq] at h
      obtain ⟨rfl, rfl⟩ := h
      exact ⟨(setcurrent_frame h1).1, fun h => by simp at h⟩
    · rename_i s1 h1
      obtain ⟨k1, k2⟩ := ih h
      obtain ⟨f1, f2⟩ := setcurrent_frame h1
      refine ⟨k1.trans f1, fun hu a ha => ?_⟩
      cases l with
      | nil =>
        simp only [showAll, Prod.mk.injEq] at h
        obtain ⟨rfl, rfl⟩ := h
        simp only [List.getLast?_singleton, Option.some.injEq] at ha
        subst ha
        exact ⟨f2, s, rfl, h1⟩
      | cons j l =>
        rw [List.getLast?_cons_cons] at ha
        obtain ⟨q1, t, q2, q3⟩ := k2 hu a ha
        exact ⟨q1, t, q2.trans f1, q3⟩

/-- **C80.** `animate` does not touch the results and, if it returns, ends with the result that was current active
again; without results it raises IndexError and leaves `current` at 0. -/
theorem c80_animate (idx : Option (List ℤ)) (s s' : Stab K) (u : Res Unit) (h : animate W S D idx s = (u, s')) :
    s'.results = s.results ∧
    (u = .ok () → s'.current = s.current ∧ ∃ t, t.results = s.results ∧ setcurrent W S D s.current t = (.ok (), s')) ∧
    (s.results = [] → u = .error .index ∧ s'.current = some 0) := by
  unfold animate at h
  obtain ⟨h1, h2⟩ := showAll_frame h
  refine ⟨h1, fun hu => h2 hu s.current ?_, fun h0 => ?_⟩
  · rw [← List.cons_append, List.getLast?_append]; simp
  · rw [showAll, c80_bad_index s 0 (by simp [h0])] at h
    simp only [Prod.mk.injEq] at h
    rw [← h.1, ← h.2]
    exact ⟨rfl, rfl⟩

end Verif.Parts.Stability
