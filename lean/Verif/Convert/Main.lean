import Verif.Convert.Model
import Verif.Held.Props
import Verif.Package.Example
import Verif.Baseline.Nano

/-!
# Property C115: converting the parameters of a model in place

`model.transform(in_format, out_format)` replaces the parameters of every part by those in another format.

## Specification
-/

set_option linter.unusedSectionVars false

namespace Verif.Parts.Convert

open Verif.Py Verif.Parts.Package

variable {K : Type}

/-- What happens to one part: its parameters are replaced by the answer of its function, and nothing else of it; or its function refuses
with ValueError, and it is as before. -/
def Step (i o : Option String) (p q : Part K) : Prop :=
  (∃ v, p.owner.transform p.pars i o = .ok v ∧ q.pars = v ∧ q.owner = p.owner ∧ q.free = p.free ∧ q.removable = p.removable ∧
    q.staticOwner = p.staticOwner ∧ q.isInt = p.isInt) ∨
  (p.owner.transform p.pars i o = .error .value ∧ q = p)

/-- The function raises something else than ValueError. -/
def Raises (i o : Option String) (e : Err) (p : Part K) : Prop :=
  p.owner.transform p.pars i o = .error e ∧ e ≠ .value

/-! ## Theorems -/

/-- **C115.** Either all parts are converted or left one by one, in their order, none added or lost; or the function of some part raises:
then that exception is raised, the parts before have been converted already, and this one and all later ones are as before. -/
theorem c115_outcome (i o : Option String) : ∀ ps : List (Part K),
    ((transform ps i o).1 = .ok () ∧ List.Forall₂ (Step i o) ps (transform ps i o).2) ∨
    ∃ e before p after done, ps = before ++ p :: after ∧ Raises i o e p ∧ (transform ps i o).1 = .error e ∧
      (transform ps i o).2 = done ++ p :: after ∧ List.Forall₂ (Step i o) before done
  | [] => .inl ⟨rfl, .nil⟩
  | p :: ps => by
    have ih := c115_outcome i o ps
    cases h : p.owner.transform p.pars i o with
    | ok v =>
      have e1 : transform (p :: ps) i o = ((transform ps i o).1, { p with pars := v } :: (transform ps i o).2) := by
        conv_lhs => unfold transform
        rw [h]
      have hs : Step i o p { p with pars := v } := .inl ⟨v, h, rfl, rfl, rfl, rfl, rfl, rfl⟩
      rw [e1]
      rcases ih with ⟨h1, h2⟩ | ⟨e, b, r, a, d, rfl, h2, h3, h4, h5⟩
      · exact .inl ⟨h1, .cons hs h2⟩
      · exact .inr ⟨e, p :: b, r, a, _ :: d, rfl, h2, h3, by simp only [h4, List.cons_append], .cons hs h5⟩
    | error e =>
      by_cases he : e = .value
      · subst he
        have e1 : transform (p :: ps) i o = ((transform ps i o).1, p :: (transform ps i o).2) := by
          conv_lhs => unfold transform
          rw [h]
        have hs : Step i o p p := .inr ⟨h, rfl⟩
        rw [e1]
        rcases ih with ⟨h1, h2⟩ | ⟨e, b, r, a, d, rfl, h2, h3, h4, h5⟩
        · exact .inl ⟨h1, .cons hs h2⟩
        · exact .inr ⟨e, p :: b, r, a, p :: d, rfl, h2, h3, by simp only [h4, List.cons_append], .cons hs h5⟩
      · have e1 : transform (p :: ps) i o = (.error e, p :: ps) := by
          conv_lhs => unfold transform
          rw [h]
          cases e <;> first | rfl | exact absurd rfl he
        rw [e1]
        exact .inr ⟨e, [], p, ps, [], rfl, ⟨h, he⟩, rfl, rfl, .nil⟩

/-- **C115.** It succeeds exactly when no function raises anything but ValueError; ValueError itself is never raised. -/
theorem c115_succeeds (i o : Option String) (ps : List (Part K)) :
    ((transform ps i o).1 = .ok () ↔ ∀ p ∈ ps, ∀ e : Err, ¬ Raises i o e p) ∧ (transform ps i o).1 ≠ .error .value := by
  have no : ∀ p : Part K, ∀ q, Step i o p q → ∀ e, ¬ Raises i o e p := by
    rintro p q (⟨v, h, -⟩ | ⟨h, -⟩) e ⟨h1, h2⟩
    · rw [h] at h1; cases h1
    · rw [h] at h1; simp only [Except.error.injEq] at h1; exact h2 h1.symm
  rcases c115_outcome i o ps with ⟨h1, h2⟩ | ⟨e, b, p, a, d, rfl, h2, h3, h4, h5⟩
  · refine ⟨⟨fun _ => ?_, fun _ => h1⟩, by rw [h1]; exact fun h => nomatch h⟩
    rename_i hok
    clear hok h1
    generalize (transform ps i o).2 = qs at h2
    induction h2 with
    | nil => intro p hp; cases hp
    | cons hs _ ih =>
      intro p hp
      rcases List.mem_cons.1 hp with rfl | hp
      · exact no _ _ hs
      · exact ih p hp
  · refine ⟨⟨fun h => ?_, fun h => absurd h2 (h p (by simp) e)⟩, ?_⟩
    · rw [h3] at h; cases h
    · rw [h3]
      intro h
      simp only [Except.error.injEq] at h
      exact h2.2 h

/-- **C115.** A name of a format that no function knows (a misspelt one) is no error: the call succeeds and nothing has changed. -/
theorem c115_misspelt [Zero K] [One K] {i o : Option String} {s : String} (hs : i = some s ∨ o = some s) (h1 : s ≠ "default_input") (h2 : s ≠ "default_output")
    {ps : List (Part K)} (h : ∀ p ∈ ps, ∃ F raw, Function.Proper F ∧ s ∉ F.parformats ∧
      p.owner.transform = Function.transformParameters F raw) : transform ps i o = (.ok (), ps) := by
  induction ps with
  | nil => rfl
  | cons p ps ih =>
    obtain ⟨F, raw, hF, hm, ht⟩ := h p (List.mem_cons_self)
    have hv : p.owner.transform p.pars i o = .error .value := by
      rw [ht]
      exact ((Function.c21_transform hF 0 (fun _ _ _ => .error .value) raw p.pars i o).1 s hs hm h1 h2).2
    conv_lhs => unfold transform
    rw [hv, ih (fun q hq => h q (List.mem_cons_of_mem _ hq))]

/-! ### Models of the package: peaks and a baseline -/

variable {nan : ℝ} {T : Table}

/-- A baseline function: the only format is "internal" (polynomial.py:55-59, arbitrary.py:73-77, fromsequence.py:92-96,
nanospherical.py:53-57). -/
def OnlyInternal (o : Owner K) : Prop :=
  ∃ raw, o.transform = Function.transformParameters ⟨["internal"], "internal", "internal"⟩ raw

theorem OnlyInternal.refuses {o : Owner K} (h : OnlyInternal o) (v : List K) {i u : String} (hiu : i = "pwa" ∨ u = "pwa") :
    o.transform v (some i) (some u) = .error .value := by
  obtain ⟨raw, e⟩ := h
  rw [e]
  unfold Function.transformParameters Function.resolveIn Function.resolveOut
  rcases hiu with rfl | rfl
  · simp
  · by_cases hi : i = "internal" ∨ i = "default_input" ∨ i = "default_output"
    · rcases hi with rfl | rfl | rfl <;> simp
    · push Not at hi
      simp [hi.1, hi.2.1, hi.2.2]

theorem from_pwa {mw : ℝ} (hmw : 0 < mw) (x : ℝ) {w : ℝ} (a : ℝ) (h0 : 0 ≤ w) (h : w ≤ mw) :
    rawTransform nan mw [x, w, a] "pwa" "internal" = .ok [x, Real.arcsin (2 * w ^ 2 / mw ^ 2 - 1), a] := by
  unfold rawTransform
  simp only [Peaks.transform_pwa hmw ⟨x, w, a⟩ h0 h]

theorem resolved_in_pwa : Function.resolveIn formats (some "pwa") = "pwa" := by decide

theorem function_from_pwa {f : ℕ} {s : Peaks.Shape × ℝ} (hmw : 0 < s.2) (x : ℝ) {w : ℝ} (a : ℝ) (h0 : 0 ≤ w) (h : w ≤ s.2) :
    (function nan f s).transform [x, w, a] (some "pwa") (some "internal") = .ok [x, Real.arcsin (2 * w ^ 2 / s.2 ^ 2 - 1), a] := by
  rw [function_transform]
  unfold Function.transformParameters
  simp only [resolved_out, resolved_in_pwa]
  rw [if_neg (not_not.2 in_formats.2), if_neg (not_not.2 in_formats.1), from_pwa hmw x a h0 h]

/-- What the user reads of a peak: position, full width at half maximum, area. -/
def Reads (T : Table) (p : Part ℝ) (x w a : ℝ) : Prop :=
  ∃ f, p.owner = function nan f (T f) ∧ Reported (T f).2 p x w a

/-- The peak as it was, but its parameters are the numbers the user reads. -/
structure AsRead (T : Table) (p q : Part ℝ) : Prop where
  owner : q.owner = p.owner
  free : q.free = p.free
  removable : q.removable = p.removable
  pars : ∃ x w a, Reads (nan := nan) T p x w a ∧ q.pars = [x, w, a]

/-- The same peak: the same numbers are read and the curve is the same at every point; what is free, removable is as before. -/
structure SameRead (T : Table) (p q : Part ℝ) : Prop where
  owner : q.owner = p.owner
  free : q.free = p.free
  removable : q.removable = p.removable
  reads : ∃ x w a, Reads (nan := nan) T p x w a ∧ Reads (nan := nan) T q x w a
  curve : ∀ r, q.owner.rawValue q.pars r = p.owner.rawValue p.pars r

/-- A peak of the package. -/
structure Ours (nan : ℝ) (T : Table) (p : Part ℝ) : Prop where
  owner : ∃ f, p.owner = function nan f (T f)
  pars : p.pars.length = 3

theorem transform_append_ok {i o : Option String} {ps qs ps' qs' : List (Part K)} (h1 : transform ps i o = (.ok (), ps'))
    (h2 : transform qs i o = (.ok (), qs')) : transform (ps ++ qs) i o = (.ok (), ps' ++ qs') := by
  induction ps generalizing ps' with
  | nil =>
    have : ps' = [] := by
      have := congrArg Prod.snd h1
      exact this.symm
    rw [this]; exact h2
  | cons p ps ih =>
    rw [List.cons_append]
    conv_lhs => unfold transform
    conv at h1 => lhs; unfold transform
    cases h : p.owner.transform p.pars i o with
    | ok v =>
      rw [h] at h1
      simp only at h1 ⊢
      obtain ⟨e1, e2⟩ := Prod.mk.inj h1
      rw [ih (ps' := (transform ps i o).2) (Prod.ext e1 rfl), ← e2]
      rfl
    | error e =>
      rw [h] at h1
      cases e <;> simp only at h1 ⊢ <;> obtain ⟨e1, e2⟩ := Prod.mk.inj h1
      all_goals first
        | (rw [ih (ps' := (transform ps i o).2) (Prod.ext e1 rfl), ← e2]; rfl)
        | cases e1

theorem transform_one_ok {i o : Option String} {p : Part K} {v : List K} (h : p.owner.transform p.pars i o = .ok v) :
    transform [p] i o = (.ok (), [{ p with pars := v }]) := by
  unfold transform
  rw [h]
  rfl

theorem transform_one_kept {i o : Option String} {p : Part K} (h : p.owner.transform p.pars i o = .error .value) :
    transform [p] i o = (.ok (), [p]) := by
  unfold transform
  rw [h]
  rfl

/-- **C115.** `model.transform("internal", "pwa")` on peaks of the package followed by a baseline: it succeeds; the parameters of every peak are
then position, full width at half maximum and area; the baseline is as before. -/
theorem c115_to_pwa (hT : ∀ f, 0 < (T f).2) {ps : List (Part ℝ)} (hp : ∀ p ∈ ps, Ours nan T p) {b : Part ℝ} (hb : OnlyInternal b.owner) :
    ∃ qs, transform (ps ++ [b]) (some "internal") (some "pwa") = (.ok (), qs ++ [b]) ∧
      List.Forall₂ (AsRead (nan := nan) T) ps qs := by
  have key : ∃ qs, transform ps (some "internal") (some "pwa") = (.ok (), qs) ∧ List.Forall₂ (AsRead (nan := nan) T) ps qs := by
    induction ps with
    | nil => exact ⟨[], rfl, .nil⟩
    | cons p ps ih =>
      obtain ⟨qs, e, h⟩ := ih (fun q hq => hp q (List.mem_cons_of_mem _ hq))
      obtain ⟨⟨f, ho⟩, hl⟩ := hp p (List.mem_cons_self)
      obtain ⟨u, v, c, hv⟩ := List.length_eq_three.1 hl
      obtain ⟨t1, t2⟩ := transform_pwa nan f (T f) u v c
      obtain ⟨h0, h1, -⟩ := Peaks.c32_fwhm_bounds (hT f) v
      have t3 := transform_append_ok (transform_one_ok (p := p) (i := some "internal") (o := some "pwa")
        (by rw [ho, hv]; exact t1)) e
      refine ⟨_ :: qs, t3, .cons ⟨rfl, rfl, rfl, u, Peaks.fwhmOf (T f).2 v, |c|, ⟨f, ho, ?_⟩, rfl⟩ h⟩
      exact ⟨by rw [ho, hv]; exact t1, by rw [ho, hv]; exact t2, get_position (by rw [ho]; rfl) hv, ⟨h0, h1⟩, abs_nonneg c⟩
  obtain ⟨qs, e, h⟩ := key
  exact ⟨qs, transform_append_ok e (transform_one_kept (hb.refuses _ (.inr rfl))), h⟩

/-- **C115.** ... and back: `model.transform("pwa", "internal")` after it succeeds, and every peak and the baseline are the same again: the same
numbers are read, the curves are the same. -/
theorem c115_back (hT : ∀ f, 0 < (T f).2) {ps : List (Part ℝ)} (hp : ∀ p ∈ ps, Ours nan T p) {b : Part ℝ} (hb : OnlyInternal b.owner) :
    ∃ qs, transform (transform (ps ++ [b]) (some "internal") (some "pwa")).2 (some "pwa") (some "internal") = (.ok (), qs ++ [b]) ∧
      List.Forall₂ (SameRead (nan := nan) T) ps qs := by
  obtain ⟨ms, e, hm⟩ := c115_to_pwa hT hp hb
  rw [e]
  have key : ∃ qs, transform ms (some "pwa") (some "internal") = (.ok (), qs) ∧ List.Forall₂ (SameRead (nan := nan) T) ps qs := by
    clear e
    induction hm with
    | nil => exact ⟨[], rfl, .nil⟩
    | @cons p m ps ms h _ ih =>
      obtain ⟨qs, e, hq⟩ := ih (fun q hq => hp q (List.mem_cons_of_mem _ hq))
      obtain ⟨x, w, a, ⟨f, ho, hr⟩, hv⟩ := h.pars
      have hl := (hp p (List.mem_cons_self)).pars
      have hown : m.owner = function nan f (T f) := h.owner.trans ho
      have t := function_from_pwa (nan := nan) (f := f) (s := T f) (hT f) x a hr.width.1 hr.width.2
      have t3 := transform_append_ok (transform_one_ok (p := m) (i := some "pwa") (o := some "internal") (by rw [hown, hv]; exact t)) e
      have hw := Peaks.fwhmOf_arcsin (hT f) hr.width.1 hr.width.2
      obtain ⟨t1, t2⟩ := transform_pwa nan f (T f) x (Real.arcsin (2 * w ^ 2 / (T f).2 ^ 2 - 1)) a
      rw [hw, abs_of_nonneg hr.area] at t1 t2
      have hq' : Reported (T f).2 { m with pars := [x, Real.arcsin (2 * w ^ 2 / (T f).2 ^ 2 - 1), a] } x w a :=
        ⟨by simp only [hown]; exact t1, by simp only [hown]; exact t2, get_position (by rw [hown]; rfl) rfl, hr.width, hr.area⟩
      refine ⟨_ :: qs, t3, .cons ⟨h.owner, h.free, h.removable, ⟨x, w, a, ⟨f, ho, hr⟩, ⟨f, hown, hq'⟩⟩, ?_⟩ hq⟩
      intro r
      rw [(c99_curve hT ho hr hl r).1, (c99_curve (nan := nan) (f := f) hT (p := { m with pars := [x, Real.arcsin (2 * w ^ 2 / (T f).2 ^ 2 - 1), a] }) hown hq' rfl r).1]
  obtain ⟨qs, e', hq⟩ := key
  exact ⟨qs, transform_append_ok e' (transform_one_kept (hb.refuses _ (.inl rfl))), hq⟩

/-- **C115.** Between the two calls the model is not the one it was: whatever is computed from it takes the numbers for internal parameters.  A peak
of the width `w` is then one of the width that internal parameter `w` stands for. -/
theorem c115_misread (hT : ∀ f, 0 < (T f).2) {f : ℕ} {p q : Part ℝ} (ho : p.owner = function nan f (T f)) (h : AsRead (nan := nan) T p q)
    {x w a : ℝ} (hr : Reported (T f).2 p x w a) : Reported (T f).2 q x (Peaks.fwhmOf (T f).2 w) a ∧
    ∀ r, q.owner.rawValue q.pars r = r.map (bell (T f).1 x (Peaks.fwhmOf (T f).2 w) a) := by
  obtain ⟨x', w', a', ⟨f', ho', hr'⟩, hv⟩ := h.pars
  have hff : f = f' := by
    have := congrArg Owner.id (ho.symm.trans ho')
    exact this
  subst hff
  have e := hr'.pwa
  rw [hr.pwa] at e
  simp only [Except.ok.injEq, List.cons.injEq, and_true] at e
  obtain ⟨rfl, rfl, rfl⟩ := e
  have hown : q.owner = function nan f (T f) := h.owner.trans ho
  obtain ⟨t1, t2⟩ := transform_pwa nan f (T f) x w a
  rw [abs_of_nonneg hr.area] at t1 t2
  obtain ⟨h0, h1, -⟩ := Peaks.c32_fwhm_bounds (hT f) w
  have hq : Reported (T f).2 q x (Peaks.fwhmOf (T f).2 w) a :=
    ⟨by rw [hown, hv]; exact t1, by rw [hown, hv]; exact t2, get_position (by rw [hown]; rfl) hv, ⟨h0, h1⟩, hr.area⟩
  exact ⟨hq, fun r => (c99_curve hT hown hq (by rw [hv]; rfl) r).1⟩

/-- **C115.** The other direction is all or part: with peaks given by position, width and area, one of which is wider than its function allows, the
call raises SrMiseTransformationError with the peaks before it converted and the others not. -/
theorem c115_halfway (hT : ∀ f, 0 < (T f).2) {ps : List (Part ℝ)} {qs : List (Part ℝ)} {p : Part ℝ} {f : ℕ} {x w a : ℝ}
    (hps : ∀ p ∈ ps, ∃ f x w a, p.owner = function nan f (T f) ∧ p.pars = [x, w, a] ∧ 0 ≤ w ∧ w ≤ (T f).2)
    (ho : p.owner = function nan f (T f)) (hv : p.pars = [x, w, a]) (hw : (T f).2 < w) :
    ∃ ps', transform (ps ++ p :: qs) (some "pwa") (some "internal") = (.error .transformation, ps' ++ p :: qs) ∧
      List.Forall₂ (fun p q => ∃ f x w a, q.owner = function nan f (T f) ∧ p.pars = [x, w, a] ∧ Reported (T f).2 q x w |a|) ps ps' := by
  induction ps with
  | nil =>
    refine ⟨[], ?_, .nil⟩
    have e : p.owner.transform p.pars (some "pwa") (some "internal") = .error .transformation := by
      rw [ho, hv, function_transform]
      unfold Function.transformParameters
      simp only [resolved_out, resolved_in_pwa]
      rw [if_neg (not_not.2 in_formats.2), if_neg (not_not.2 in_formats.1)]
      unfold rawTransform
      have h0 : 0 ≤ w := le_trans (hT f).le hw.le
      simp only [((Peaks.c32_too_wide (hT f) ⟨x, w, a⟩ h0).1).2 hw]
    rw [List.nil_append]
    unfold transform
    rw [e]
  | cons q ps ih =>
    obtain ⟨ps', e, h⟩ := ih (fun q hq => hps q (List.mem_cons_of_mem _ hq))
    obtain ⟨g, u, v, c, hg, hq, h0, h1⟩ := hps q (List.mem_cons_self)
    have t := function_from_pwa (nan := nan) (f := g) (s := T g) (hT g) u c h0 h1
    have t' : q.owner.transform q.pars (some "pwa") (some "internal") = .ok [u, Real.arcsin (2 * v ^ 2 / (T g).2 ^ 2 - 1), c] := by
      rw [hg, hq]; exact t
    obtain ⟨t1, t2⟩ := transform_pwa nan g (T g) u (Real.arcsin (2 * v ^ 2 / (T g).2 ^ 2 - 1)) c
    rw [Peaks.fwhmOf_arcsin (hT g) h0 h1] at t1 t2
    refine ⟨{ q with pars := [u, Real.arcsin (2 * v ^ 2 / (T g).2 ^ 2 - 1), c] } :: ps', ?_,
      .cons ⟨g, u, v, c, hg, hq, ⟨?_, ?_, get_position (by rw [hg]; rfl) rfl, ⟨h0, h1⟩, abs_nonneg c⟩⟩ h⟩
    · rw [List.cons_append]
      unfold transform
      rw [t']
      simp only [e, List.cons_append]
    · simp only [hg]; exact t1
    · simp only [hg]; exact t2

/-! ### Parts that occur twice -/

/-- **C115.** For a list of different parts the objects behave like the list; all other parts are untouched. -/
theorem c115_objects (i o : Option String) (S : Store K) : ∀ ids : List ℕ, ids.Nodup →
    (transformAt S ids i o).1 = (transform (ids.map S) i o).1 ∧ ids.map (transformAt S ids i o).2 = (transform (ids.map S) i o).2 ∧
    ∀ a, a ∉ ids → (transformAt S ids i o).2 a = S a := by
  intro ids
  induction ids generalizing S with
  | nil => intro _; exact ⟨rfl, rfl, fun _ _ => rfl⟩
  | cons a ids ih =>
    intro hn
    obtain ⟨hna, hn⟩ := List.nodup_cons.1 hn
    rw [List.map_cons]
    unfold transformAt transform
    cases h : (S a).owner.transform (S a).pars i o with
    | ok v =>
      obtain ⟨h1, h2, h3⟩ := ih (S.put a v) hn
      have hm : ids.map (S.put a v) = ids.map S := List.map_congr_left (fun b hb => by
        have : b ≠ a := fun e => hna (e ▸ hb)
        simp [Store.put, this])
      rw [hm] at h1 h2
      refine ⟨h1, ?_, ?_⟩
      · simp only [List.map_cons, h2, h3 a hna]
        simp [Store.put]
      · intro b hb
        rw [List.mem_cons, not_or] at hb
        simp only [h3 b hb.2, Store.put, if_neg hb.1]
    | error e =>
      by_cases he : e = .value
      · subst he
        obtain ⟨h1, h2, h3⟩ := ih S hn
        refine ⟨h1, ?_, ?_⟩
        · simp only [List.map_cons, h2, h3 a hna]
        · intro b hb
          rw [List.mem_cons, not_or] at hb
          exact h3 b hb.2
      · cases e <;> first | exact absurd rfl he | exact ⟨rfl, rfl, fun _ _ => rfl⟩

/-- **C115.** A part that occurs twice is converted twice: the second time its new numbers are taken to be in the old format.  A peak of the
package listed twice comes out of the conversion to "pwa" with the width of the width. -/
theorem c115_listed_twice {f : ℕ} (S : Store ℝ) {k : ℕ} (ho : (S k).owner = function nan f (T f)) {x b a : ℝ}
    (hv : (S k).pars = [x, b, a]) :
    (transformAt S [k, k] (some "internal") (some "pwa")).1 = .ok () ∧
    ((transformAt S [k, k] (some "internal") (some "pwa")).2 k).pars = [x, Peaks.fwhmOf (T f).2 (Peaks.fwhmOf (T f).2 b), |a|] := by
  have e1 : (S k).owner.transform (S k).pars (some "internal") (some "pwa") = .ok [x, Peaks.fwhmOf (T f).2 b, |a|] := by
    rw [ho, hv]; exact (transform_pwa nan f (T f) x b a).1
  have e2 : ∀ S' : Store ℝ, S' = S.put k [x, Peaks.fwhmOf (T f).2 b, |a|] →
      (S' k).owner.transform (S' k).pars (some "internal") (some "pwa") = .ok [x, Peaks.fwhmOf (T f).2 (Peaks.fwhmOf (T f).2 b), |a|] := by
    intro S' hS
    subst hS
    have := (transform_pwa nan f (T f) x (Peaks.fwhmOf (T f).2 b) |a|).1
    rw [abs_abs] at this
    simp only [Store.put, if_true, ho]
    exact this
  unfold transformAt
  rw [e1]
  simp only
  unfold transformAt
  rw [e2 _ rfl]
  simp only
  unfold transformAt
  exact ⟨rfl, by simp [Store.put]⟩

/-! ### Instances -/

/-- A straight baseline. -/
def line : Owner ℝ where
  id := 9
  npars := 2
  dict := [("a_0", 0), ("a_1", 1)]
  rawValue v r := r.map (fun x => v.getD 0 0 * x + v.getD 1 0)
  rawJac _ _ _ := []
  transform := Function.transformParameters ⟨["internal"], "internal", "internal"⟩ (fun v _ _ => .ok v)

def base : Part ℝ := ⟨line, [1, 2], [true, true], false, false, false⟩

theorem base_only : OnlyInternal base.owner := ⟨fun v _ _ => .ok v, rfl⟩

theorem ours : ∀ p ∈ [exPeak], Ours 0 exTable p := fun p hp => by
  rw [List.mem_singleton.1 hp]; exact ⟨⟨5, rfl⟩, rfl⟩

example : ∃ qs, transform ([exPeak] ++ [base]) (some "internal") (some "pwa") = (.ok (), qs ++ [base]) ∧
    List.Forall₂ (AsRead (nan := 0) exTable) [exPeak] qs :=
  c115_to_pwa exTable_pos ours base_only

example : ∃ qs, transform (transform ([exPeak] ++ [base]) (some "internal") (some "pwa")).2 (some "pwa") (some "internal") =
    (.ok (), qs ++ [base]) ∧ List.Forall₂ (SameRead (nan := 0) exTable) [exPeak] qs :=
  c115_back exTable_pos ours base_only

/-- Misspelt: "PWA". -/
example : transform [exPeak] (some "internal") (some "PWA") = (.ok (), [exPeak]) :=
  c115_misspelt (.inr rfl) (by decide) (by decide) (fun p hp => by
    rw [List.mem_singleton.1 hp]
    exact ⟨formats, _, ⟨by decide, by decide, by decide, by decide⟩, by decide, function_transform 0 5 (exTable 5)⟩)

/-- Widths 1, 3 and 1, of which at most 2 is allowed. -/
noncomputable def wide (w : ℝ) : Part ℝ := { exPeak with pars := [3, w, 4] }

example : ∃ ps', transform ([wide 1] ++ wide 3 :: [wide 1]) (some "pwa") (some "internal") = (.error .transformation, ps' ++ wide 3 :: [wide 1]) ∧
    List.Forall₂ (fun p q => ∃ f x w a, q.owner = function 0 f (exTable f) ∧ p.pars = [x, w, a] ∧ Reported (exTable f).2 q x w |a|)
      [wide 1] ps' :=
  c115_halfway (T := exTable) exTable_pos (x := 3) (w := 3) (a := 4) (f := 5) (fun p hp => by
      rw [List.mem_singleton.1 hp]
      exact ⟨5, 3, 1, 4, rfl, rfl, by norm_num, by show (1 : ℝ) ≤ 2; norm_num⟩)
    rfl rfl (by show (2 : ℝ) < 3; norm_num)

/-- The widest peak of `maxwidth` 1 (internal parameter π/2) is narrower after a conversion to "pwa", and after two. -/
example : Peaks.fwhmOf 1 (Peaks.fwhmOf 1 (Real.pi / 2)) < Peaks.fwhmOf 1 (Real.pi / 2) := by
  have h1 : Peaks.fwhmOf 1 (Real.pi / 2) = 1 := by
    show Real.sqrt (0.5 * (Real.sin (Real.pi / 2) + 1) * 1 ^ 2) = 1
    rw [Real.sin_pi_div_two]
    norm_num
  rw [h1]
  show Real.sqrt (0.5 * (Real.sin 1 + 1) * 1 ^ 2) < 1
  rw [Real.sqrt_lt' (by norm_num)]
  have := Real.sin_lt (x := 1) (by norm_num)
  linarith

example (S : Store ℝ) (h : S 4 = exPeak) : ((transformAt S [4, 4] (some "internal") (some "pwa")).2 4).pars =
    [3, Peaks.fwhmOf 2 (Peaks.fwhmOf 2 0), 4] := by
  have := (c115_listed_twice (nan := 0) (T := exTable) (f := 5) S (k := 4) (x := 3) (b := 0) (a := -4) (by rw [h]; rfl) (by rw [h]; rfl)).2
  rw [this]
  norm_num [exTable]

end Verif.Parts.Convert
