import Verif.PeakList.Model
import Verif.Parts.Props
import Mathlib.Tactic.Linarith
import Mathlib.Tactic.FieldSimp
import Mathlib.Tactic.Ring

/-!
# Properties C37 (sorting) and C57 (`Peak.scale_at`, `Peaks.match_at`)
-/

set_option linter.unusedSectionVars false

namespace Verif.PeakList

open Verif.Py Verif.Parts

variable {K : Type}

/-! ### C37 -/

theorem filterMap_range_getElem? {α : Type} (l : List α) :
    (List.range l.length).filterMap (fun i => l[i]?) = l := by
  induction l with
  | nil => rfl
  | cons a l ih =>
    rw [List.length_cons, List.range_succ_eq_map, List.filterMap_cons, List.filterMap_map]
    simp only [List.getElem?_cons_zero]
    congr 1

theorem sortedLoop_iff [LinearOrder K] (l : List K) : sortedLoop l = true ↔ l.Pairwise (· ≤ ·) := by
  induction l with
  | nil => simp [sortedLoop]
  | cons a l ih =>
    cases l with
    | nil => simp [sortedLoop]
    | cons b l =>
      unfold sortedLoop
      by_cases h : b < a
      · rw [if_pos h]
        simp only [Bool.false_eq_true, List.pairwise_cons, false_iff, not_and]
        intro h2
        exact absurd (h2 b List.mem_cons_self) (not_le.2 h)
      · rw [if_neg h, ih]
        constructor
        · intro hp
          refine List.pairwise_cons.2 ⟨?_, hp⟩
          intro c hc
          rcases List.mem_cons.1 hc with rfl | hc
          · exact not_lt.1 h
          · exact le_trans (not_lt.1 h) ((List.pairwise_cons.1 hp).1 c hc)
        · intro hp; exact (List.pairwise_cons.1 hp).2

/-- **C37.** `sort()` leaves the same peaks, each as often as before, in non-decreasing order of the key
— whatever order numpy's `argsort` gives to equal keys; `reverse=True` has no effect. -/
theorem c37_sort [LinearOrder K] {as : List K → List ℕ} (h : SortsKeys as) (reverse : Bool)
    (key : Part K → K) (ps : List (Part K)) :
    (sort as reverse key ps).Perm ps ∧
    (sort as reverse key ps).Pairwise (fun p q => key p ≤ key q) := by
  obtain ⟨h1, h2⟩ := h (ps.map key)
  constructor
  · have := h1.filterMap (fun idx => ps[idx]?)
    rw [List.length_map, filterMap_range_getElem?] at this
    exact this
  · unfold sort
    rw [List.pairwise_filterMap, List.pairwise_iff_getElem]
    intro i j hi hj hij p hp q hq
    refine h2 i j _ _ _ _ hij (List.getElem?_eq_getElem hi) (List.getElem?_eq_getElem hj) ?_ ?_
    · rw [List.getElem?_map, hp]; rfl
    · rw [List.getElem?_map, hq]; rfl

/-- **C37.** `argsort()` gives every index once, in an order along which the key does not decrease; for
peaks that are already in order it is the identity. -/
theorem c37_argsort [LinearOrder K] {as : List K → List ℕ} (h : SortsKeys as) (key : Part K → K)
    (ps : List (Part K)) :
    (argsort as key ps).Perm (List.range ps.length) ∧
    ((argsort as key ps).filterMap (fun i => ps[i]?)).Pairwise (fun p q => key p ≤ key q) ∧
    (ps.Pairwise (fun p q => key p ≤ key q) → argsort as key ps = List.range ps.length) := by
  unfold argsort
  have hs : sortedLoop (ps.map key) = true ↔ ps.Pairwise (fun p q => key p ≤ key q) := by
    rw [sortedLoop_iff, List.pairwise_map]
  by_cases hc : sortedLoop (ps.map key) = true
  · simp only [if_pos hc, List.length_map]
    refine ⟨List.Perm.refl _, ?_, fun _ => trivial⟩
    rw [filterMap_range_getElem?]
    exact hs.1 hc
  · simp only [if_neg hc]
    refine ⟨?_, (c37_sort h false key ps).2, fun h' => absurd (hs.2 h') hc⟩
    have := (h (ps.map key)).1
    rwa [List.length_map] at this

/-- An `argsort` as promised exists: the stable one. -/
theorem sortsKeys_exists [LinearOrder K] [Zero K] : ∃ as : List K → List ℕ, SortsKeys as := by
  refine ⟨fun keys => (List.range keys.length).mergeSort
    (fun a b => decide (keys.getD a 0 ≤ keys.getD b 0)), ?_⟩
  intro keys
  refine ⟨List.mergeSort_perm _ _, ?_⟩
  intro i j a b ka kb hij ha hb hka hkb
  have hp := List.pairwise_mergeSort (le := fun a b => decide (keys.getD a 0 ≤ keys.getD b 0))
    (fun a b c h1 h2 => by simp only [decide_eq_true_eq] at *; exact le_trans h1 h2)
    (fun a b => by simp only [Bool.or_eq_true, decide_eq_true_eq]; exact le_total _ _)
    (List.range keys.length)
  rw [List.pairwise_iff_getElem] at hp
  obtain ⟨hi, ha⟩ := List.getElem?_eq_some_iff.1 ha
  obtain ⟨hj, hb⟩ := List.getElem?_eq_some_iff.1 hb
  have := hp i j hi hj hij
  rw [ha, hb] at this
  simpa [List.getD_eq_getElem?_getD, hka, hkb] using this

/-! ### C57 -/

/-- `q` is `p` with other values of some free parameters. -/
structure OnlyFree (p q : Part K) : Prop where
  owner : q.owner = p.owner
  free : q.free = p.free
  removable : q.removable = p.removable
  static : q.staticOwner = p.staticOwner
  length : q.pars.length = p.pars.length
  fixed : ∀ (j : ℕ), p.free[j]? = some false → q.pars[j]? = p.pars[j]?

theorem OnlyFree.refl (p : Part K) : OnlyFree p p := ⟨rfl, rfl, rfl, rfl, rfl, fun _ _ => rfl⟩

/-- The owner's `scale_at` returns as many parameters as it got, and the peak has a flag for each. -/
def ScaleLen (sc : Part K → K → K → Res (List K)) : Prop :=
  ∀ p x s adj, sc p x s = .ok adj → adj.length = p.pars.length

theorem fixedChanged_false [DecidableEq K] (a b : List K) (f : List Bool) (h : fixedChanged a b f = false)
    (hab : b.length = a.length) (hf : f.length = a.length) (j : ℕ) (hj : f[j]? = some false) :
    b[j]? = a[j]? := by
  induction a generalizing b f j with
  | nil =>
    have : f = [] := List.length_eq_zero_iff.1 (by simpa using hf)
    subst this
    simp at hj
  | cons x a ih =>
    match b, f, hab, hf with
    | y :: b, g :: f, hab, hf =>
      simp only [fixedChanged, Bool.or_eq_false_iff, Bool.and_eq_false_iff, decide_eq_false_iff_not,
        Bool.not_eq_false', ne_eq, not_not] at h
      match j with
      | 0 =>
        simp only [List.getElem?_cons_zero, Option.some.injEq] at hj
        subst hj
        rcases h.1 with h | h
        · simp [h]
        · simp at h
      | j + 1 =>
        simp only [List.getElem?_cons_succ] at hj ⊢
        exact ih b f h.2 (by simpa using hab) (by simpa using hf) j hj

/-- **C57.** `Peak.scale_at` never changes a fixed parameter.  If it returns True the parameters are
those computed by the peak function (and differ from the old ones at most in free parameters); if it
returns False, or raises, the peak is unchanged; it returns False when nothing is free, when the peak
function cannot scale the peak, and when a fixed parameter would have to change. -/
theorem c57_scale_at [DecidableEq K] {sc : Part K → K → K → Res (List K)} (hsc : ScaleLen sc)
    (p : Part K) (hp : p.free.length = p.pars.length) (x s : K) :
    OnlyFree p (scaleAt sc p x s).2 ∧
    ((scaleAt sc p x s).1 = .ok true →
      (∃ j : ℕ, p.free[j]? = some true) ∧ sc p x s = .ok (scaleAt sc p x s).2.pars) ∧
    ((scaleAt sc p x s).1 ≠ .ok true → (scaleAt sc p x s).2 = p) ∧
    (∀ adj, sc p x s = .ok adj → (∃ j : ℕ, p.free[j]? = some true) →
      (∀ j : ℕ, p.free[j]? = some false → adj[j]? = p.pars[j]?) → (scaleAt sc p x s).1 = .ok true) ∧
    (sc p x s = .error .scaling → (scaleAt sc p x s).1 = .ok false) := by
  have hall : (p.free.all (fun f => !f)) = true ↔ ¬ ∃ j : ℕ, p.free[j]? = some true := by
    rw [List.all_eq_true]
    constructor
    · rintro h ⟨j, hj⟩
      simpa using h true (List.mem_of_getElem? hj)
    · intro h b hb
      cases b with
      | false => rfl
      | true =>
        obtain ⟨j, hj⟩ := List.mem_iff_getElem?.1 hb
        exact absurd ⟨j, hj⟩ h
  unfold scaleAt
  by_cases hn : (p.free.all (fun f => !f)) = true
  · rw [if_pos hn]
    refine ⟨OnlyFree.refl p, by simp, fun _ => rfl, fun adj _ h _ => absurd h (hall.1 hn), fun _ => rfl⟩
  · rw [if_neg hn]
    have hfree : ∃ j : ℕ, p.free[j]? = some true := by
      by_contra hc; exact hn (hall.2 hc)
    cases hs : sc p x s with
    | error e =>
      cases e <;> simp [OnlyFree.refl]
    | ok adj =>
      simp only
      have hl := hsc p x s adj hs
      by_cases hf : fixedChanged p.pars adj p.free = true
      · rw [if_pos hf]
        refine ⟨OnlyFree.refl p, by simp, fun _ => rfl, ?_, by simp⟩
        intro adj' hadj _ hfix
        exfalso
        simp only [Except.ok.injEq] at hadj
        subst hadj
        clear hs hn hall hfree
        have key : ∀ (a b : List K) (f : List Bool), b.length = a.length → f.length = a.length →
            (∀ j : ℕ, f[j]? = some false → b[j]? = a[j]?) → fixedChanged a b f = false := by
          intro a
          induction a with
          | nil => intro b f _ _ _; cases b <;> simp [fixedChanged]
          | cons x a ih =>
            intro b f h1 h2 h3
            match b, f, h1, h2 with
            | y :: b, g :: f, h1, h2 =>
              simp only [fixedChanged, Bool.or_eq_false_iff]
              refine ⟨?_, ih b f (by simpa using h1) (by simpa using h2) (fun j hj => by
                simpa using h3 (j + 1) (by simpa using hj))⟩
              cases g with
              | true => simp
              | false =>
                have := h3 0 rfl
                simp at this
                simp [this]
        rw [key _ _ _ hl hp hfix] at hf
        simp at hf
      · rw [if_neg hf]
        have hf' : fixedChanged p.pars adj p.free = false := by simpa using hf
        refine ⟨⟨rfl, rfl, rfl, rfl, hl, fun j hj => fixedChanged_false _ _ _ hf' hl hp j hj⟩,
          fun _ => ⟨hfree, rfl⟩, by simp, by simp, by simp⟩

section Field

variable [Field K] [LinearOrder K]

/-- Peaks as built by the package: one flag per parameter. -/
def Flagged (ps : List (Part K)) : Prop := ∀ p ∈ ps, p.free.length = p.pars.length

theorem firstAttempt_onlyFree {sc : Part K → K → K → Res (List K)} (hsc : ScaleLen sc)
    (val : Part K → K → K) (x s : K) (ps : List (Part K)) (hf : Flagged ps) :
    List.Forall₂ OnlyFree ps (firstAttempt sc val x s ps).2 := by
  induction ps with
  | nil => exact List.Forall₂.nil
  | cons p ps ih =>
    have h1 := (c57_scale_at hsc p (hf p List.mem_cons_self) x s).1
    have h2 := ih (fun q hq => hf q (List.mem_cons_of_mem _ hq))
    unfold firstAttempt
    generalize scaleAt sc p x s = a at *
    generalize firstAttempt sc val x s ps = b at *
    obtain ⟨ra, p'⟩ := a
    obtain ⟨rb, ps'⟩ := b
    cases ra with
    | error e =>
      refine List.Forall₂.cons h1 ?_
      clear * -
      induction ps with
      | nil => exact List.Forall₂.nil
      | cons q qs ih => exact List.Forall₂.cons (OnlyFree.refl q) ih
    | ok b =>
      cases rb with
      | error e => exact List.Forall₂.cons h1 h2
      | ok v => obtain ⟨bs, h⟩ := v; exact List.Forall₂.cons h1 h2

theorem onlyFree_refl (ps : List (Part K)) : List.Forall₂ OnlyFree ps ps := by
  induction ps with
  | nil => exact List.Forall₂.nil
  | cons q qs ih => exact List.Forall₂.cons (OnlyFree.refl q) ih

/-- **C57.** Whatever `match_at` does and returns, the peaks stay the same in number and order, each with
its function, flags and the values of its fixed parameters. -/
theorem c57_fixed_kept {sc : Part K → K → K → Res (List K)} (hsc : ScaleLen sc)
    (val : Part K → K → K) (ps : List (Part K)) (hf : Flagged ps) (x y : K) :
    List.Forall₂ OnlyFree ps (matchAt sc val ps x y).2 := by
  unfold matchAt
  simp only
  by_cases h0 : valueAt val ps x = 0
  · rw [if_pos h0]; exact onlyFree_refl ps
  rw [if_neg h0]
  have h1 := firstAttempt_onlyFree hsc val x (y / valueAt val ps x) ps hf
  generalize firstAttempt sc val x (y / valueAt val ps x) ps = a at *
  obtain ⟨ra, ps'⟩ := a
  cases ra with
  | error e => exact onlyFree_refl ps
  | ok v =>
    obtain ⟨scaled, fh⟩ := v
    simp only
    by_cases hc : ¬ (scaled.all id = true) ∧ fh < y ∧ fh < valueAt val ps x
    · rw [if_pos hc]
      match ps, scaled with
      | [p0, p1], [s0, s1] =>
        simp only
        have h2 := (c57_scale_at hsc p0 (hf p0 List.mem_cons_self) x
          ((y - fh) / (valueAt val [p0, p1] x - fh))).1
        by_cases hl : p1.pars.length = 0
        · simp only [if_pos hl]
          cases s1 <;> exact onlyFree_refl _
        · simp only [if_neg hl]
          generalize scaleAt sc p0 x ((y - fh) / (valueAt val [p0, p1] x - fh)) = b at *
          obtain ⟨rb, p0'⟩ := b
          cases rb with
          | error e => exact List.Forall₂.cons h2 (onlyFree_refl _)
          | ok any => cases s1 <;> exact List.Forall₂.cons h2 (onlyFree_refl _)
      | [], _ => exact onlyFree_refl _
      | [_], _ => exact onlyFree_refl _
      | _ :: _ :: _ :: _, _ => exact onlyFree_refl _
      | [_, _], [] => exact onlyFree_refl _
      | [_, _], [_] => exact onlyFree_refl _
      | [_, _], _ :: _ :: _ :: _ => exact onlyFree_refl _
    · rw [if_neg hc]; exact h1

theorem firstAttempt_all {sc : Part K → K → K → Res (List K)} {val : Part K → K → K} {x s : K}
    (ps : List (Part K)) (h : ∀ p ∈ ps, ∃ p', scaleAt sc p x s = (.ok true, p') ∧
      val p' x = s * val p x) :
    ∃ ps', firstAttempt sc val x s ps = (.ok (List.replicate ps.length true, 0), ps') ∧
      valueAt val ps' x = s * valueAt val ps x ∧
      List.Forall₂ (fun p p' => scaleAt sc p x s = (.ok true, p')) ps ps' := by
  induction ps with
  | nil => exact ⟨[], rfl, by simp [valueAt], List.Forall₂.nil⟩
  | cons p ps ih =>
    obtain ⟨p', h1, h2⟩ := h p List.mem_cons_self
    obtain ⟨ps', e1, e2, e3⟩ := ih (fun q hq => h q (List.mem_cons_of_mem _ hq))
    refine ⟨p' :: ps', ?_, ?_, List.Forall₂.cons h1 e3⟩
    · unfold firstAttempt
      rw [h1, e1]
      simp [List.replicate_succ]
    · simp only [valueAt, List.map_cons, List.sum_cons] at e2 ⊢
      rw [h2, e2]; ring

/-- **C57.** If every peak can be scaled by the required factor (and the peak functions' `scale_at` does
scale: C36), then after `match_at(x, y)` the sum of the peaks at `x` is exactly `y`, each peak has been
scaled by its own `scale_at` with the same factor, and the method returns True. -/
theorem c57_matches {sc : Part K → K → K → Res (List K)} {val : Part K → K → K}
    (ps : List (Part K)) (x y : K) (h0 : valueAt val ps x ≠ 0)
    (h : ∀ p ∈ ps, ∃ p', scaleAt sc p x (y / valueAt val ps x) = (.ok true, p') ∧
      val p' x = y / valueAt val ps x * val p x) :
    ∃ ps', matchAt sc val ps x y = (true, ps') ∧ valueAt val ps' x = y ∧
      List.Forall₂ (fun p p' => scaleAt sc p x (y / valueAt val ps x) = (.ok true, p')) ps ps' := by
  obtain ⟨ps', e1, e2, e3⟩ := firstAttempt_all ps h
  refine ⟨ps', ?_, by rw [e2]; field_simp, e3⟩
  unfold matchAt
  simp only
  rw [if_neg h0, e1]
  simp only
  rw [if_neg (by simp)]
  have hne : ps ≠ [] := by
    rintro rfl
    simp [valueAt] at h0
  obtain ⟨p, ps, rfl⟩ := List.exists_cons_of_ne_nil hne
  simp [List.replicate_succ]

/-- **C57.** The answer False means nothing was changed — except when there are exactly two peaks
(`c57_false_but_changed`). -/
theorem c57_false_unchanged {sc : Part K → K → K → Res (List K)} (hsc : ScaleLen sc)
    {val : Part K → K → K} (ps : List (Part K)) (hf : Flagged ps) (h2 : ps.length ≠ 2) (x y : K)
    (h : (matchAt sc val ps x y).1 = false) : (matchAt sc val ps x y).2 = ps := by
  unfold matchAt at h ⊢
  simp only at h ⊢
  by_cases h0 : valueAt val ps x = 0
  · rw [if_pos h0]
  rw [if_neg h0] at h ⊢
  have key : ∀ s bs fh qs qs', Flagged qs → firstAttempt sc val x s qs = (.ok (bs, fh), qs') →
      bs.any id = false → qs' = qs := by
    intro s bs fh qs
    induction qs generalizing bs fh with
    | nil => intro qs' _ hq _; simp [firstAttempt] at hq; exact hq.2
    | cons q qs ih =>
      intro qs' hfl hq hb
      unfold firstAttempt at hq
      have h3 := (c57_scale_at hsc q (hfl q List.mem_cons_self) x s).2.2.1
      generalize hA : scaleAt sc q x s = a at *
      generalize hB : firstAttempt sc val x s qs = b at *
      obtain ⟨ra, p'⟩ := a
      obtain ⟨rb, ps'⟩ := b
      cases ra with
      | error e => simp at hq
      | ok v =>
        cases rb with
        | error e => simp at hq
        | ok w =>
          obtain ⟨ws, wh⟩ := w
          simp only [Prod.mk.injEq, Except.ok.injEq] at hq
          obtain ⟨⟨rfl, rfl⟩, rfl⟩ := hq
          simp only [List.any_cons, id_eq, Bool.or_eq_false_iff] at hb
          have e1 := ih ws wh ps' (fun r hr => hfl r (List.mem_cons_of_mem _ hr)) rfl hb.2
          rw [e1]
          have e2 := h3 (by simp [hb.1])
          simp only at e2
          rw [e2]
  generalize hA : firstAttempt sc val x (y / valueAt val ps x) ps = a at *
  obtain ⟨ra, ps'⟩ := a
  cases ra with
  | error e => rfl
  | ok v =>
    obtain ⟨scaled, fh⟩ := v
    simp only at h ⊢
    by_cases hc : ¬ (scaled.all id = true) ∧ fh < y ∧ fh < valueAt val ps x
    · rw [if_pos hc]
      match ps, scaled with
      | [p0, p1], _ => simp at h2
      | [], _ => rfl
      | [_], _ => rfl
      | _ :: _ :: _ :: _, _ => rfl
    · rw [if_neg hc] at h ⊢
      exact key _ _ _ _ _ hf hA h

/-- **C57.** With exactly two peaks the answer False still means that the second peak is unchanged, and the first one
at most in its free parameters. -/
theorem c57_false_two_peaks {sc : Part K → K → K → Res (List K)} (hsc : ScaleLen sc)
    {val : Part K → K → K} (p0 p1 : Part K) (hf : Flagged [p0, p1]) (x y : K)
    (h : (matchAt sc val [p0, p1] x y).1 = false) :
    ∃ p0', (matchAt sc val [p0, p1] x y).2 = [p0', p1] ∧ OnlyFree p0 p0' := by
  have hall := c57_fixed_kept hsc val [p0, p1] hf x y
  have key : ∀ q1, (∃ p0', (matchAt sc val [p0, p1] x y).2 = [p0', q1]) → q1 = p1 →
      ∃ p0', (matchAt sc val [p0, p1] x y).2 = [p0', p1] ∧ OnlyFree p0 p0' := by
    rintro q1 ⟨p0', e⟩ rfl
    rw [e] at hall
    cases hall with
    | cons h1 _ => exact ⟨p0', e, h1⟩
  unfold matchAt at h key ⊢
  simp only at h key ⊢
  by_cases h0 : valueAt val [p0, p1] x = 0
  · rw [if_pos h0] at key ⊢; exact ⟨p0, rfl, OnlyFree.refl _⟩
  rw [if_neg h0] at h key ⊢
  generalize hs : y / valueAt val [p0, p1] x = s at *
  have hc1 := (c57_scale_at hsc p1 (hf p1 (by simp)) x s).2.2.1
  have hc0 := (c57_scale_at hsc p0 (hf p0 (by simp)) x s).2.2.1
  generalize hA : firstAttempt sc val x s [p0, p1] = a at *
  obtain ⟨ra, ps'⟩ := a
  cases ra with
  | error e => exact ⟨p0, rfl, OnlyFree.refl _⟩
  | ok v =>
    obtain ⟨scaled, fh⟩ := v
    simp only at h key ⊢
    by_cases hc : ¬ (scaled.all id = true) ∧ fh < y ∧ fh < valueAt val [p0, p1] x
    · rw [if_pos hc] at h key ⊢
      match scaled with
      | [s0, s1] =>
        simp only at h key ⊢
        generalize (if p1.pars.length = 0 then (.ok false, p0) else scaleAt sc p0 x
          ((y - fh) / (valueAt val [p0, p1] x - fh))) = b at *
        obtain ⟨rb, p0'⟩ := b
        cases rb with
        | error e => exact key p1 ⟨p0', rfl⟩ rfl
        | ok any => cases s1 <;> exact key p1 ⟨p0', rfl⟩ rfl
      | [] => exact ⟨p0, rfl, OnlyFree.refl _⟩
      | [_] => exact ⟨p0, rfl, OnlyFree.refl _⟩
      | _ :: _ :: _ :: _ => exact ⟨p0, rfl, OnlyFree.refl _⟩
    · rw [if_neg hc] at h key ⊢
      refine ⟨p0, ?_, OnlyFree.refl _⟩
      simp only at h
      unfold firstAttempt firstAttempt firstAttempt at hA
      generalize scaleAt sc p0 x s = a0 at *
      generalize scaleAt sc p1 x s = a1 at *
      obtain ⟨r0, q0⟩ := a0
      obtain ⟨r1, q1⟩ := a1
      cases r0 with
      | error e => simp at hA
      | ok b0 =>
        cases r1 with
        | error e => simp at hA
        | ok b1 =>
          simp only [Prod.mk.injEq, Except.ok.injEq] at hA
          obtain ⟨⟨rfl, rfl⟩, rfl⟩ := hA
          simp only [List.any_cons, List.any_nil, id_eq, Bool.or_false, Bool.or_eq_false_iff] at h
          have e0 := hc0 (by simp [h.1])
          have e1 := hc1 (by simp [h.2])
          simp only at e0 e1
          rw [e0, e1]

/-- **C57, finding.** With three or more peaks of which one cannot be scaled, the "second attempt", which
should scale the others so that the sum still matches, never happens: it fails inside and nothing is
changed, although the unscalable peaks alone stay below `y`. -/
theorem c57_second_attempt_fails {sc : Part K → K → K → Res (List K)} {val : Part K → K → K}
    (ps ps' : List (Part K)) (h2 : ps.length ≠ 2) (x y : K) (h0 : valueAt val ps x ≠ 0)
    {bs : List Bool} {fh : K} (hfirst : firstAttempt sc val x (y / valueAt val ps x) ps = (.ok (bs, fh), ps'))
    (hb : false ∈ bs) (h3 : fh < y) (h4 : fh < valueAt val ps x) :
    matchAt sc val ps x y = (false, ps) := by
  unfold matchAt
  simp only
  rw [if_neg h0, hfirst]
  simp only
  rw [if_pos ⟨fun h => by simpa using List.all_eq_true.1 h false hb, h3, h4⟩]
  match ps, bs with
  | [p0, p1], _ => simp at h2
  | [], _ => rfl
  | [_], _ => rfl
  | _ :: _ :: _ :: _, _ => rfl

end Field

/-! #### Witnesses: peaks of constant value `pars[0]`, which can be scaled up by at most 2 -/

def boxOwner : Owner ℚ :=
  ⟨0, 1, [("position", 0)], fun v r => r.map (fun _ => v.headD 0), fun _ _ _ => [none], fun v _ _ => .ok v⟩

def box (h : ℚ) (free : Bool) : Part ℚ := ⟨boxOwner, [h], [free], true, false, false⟩

/-- Scales values of at least 2 by any positive factor, and smaller values only by factors below 3/2. -/
def boxScale (p : Part ℚ) (_x s : ℚ) : Res (List ℚ) :=
  if s ≤ 0 then .error .scaling
  else if p.pars.headD 0 < 2 ∧ 3 / 2 ≤ s then .error .scaling
  else .ok (p.pars.map (s * ·))

def boxVal (p : Part ℚ) (_x : ℚ) : ℚ := p.pars.headD 0

theorem boxScale_len : ScaleLen boxScale := by
  intro p x s adj h
  unfold boxScale at h
  split at h
  · simp at h
  · split at h
    · simp at h
    · simp only [Except.ok.injEq] at h; subst h; simp

/-- Instance of `c57_matches`: both peaks are scaled by 5/4. -/
example : (matchAt boxScale boxVal [box 1 true, box 3 true] 0 5).1 = true ∧
    ((matchAt boxScale boxVal [box 1 true, box 3 true] 0 5).2.map (fun p => p.pars)) =
      [[5 / 4], [15 / 4]] := by
  decide +kernel

/-- Instance of `c57_second_attempt_fails`: the last peak is fixed. -/
example : (matchAt boxScale boxVal [box 3 true, box 3 true, box 1 false] 0 10).1 = false ∧
    ((matchAt boxScale boxVal [box 3 true, box 3 true, box 1 false] 0 10).2.map (fun p => p.pars)) =
      [[3], [3], [1]] := by
  decide +kernel

/-- **C57, finding.** With two peaks `match_at` may return False ("left unchanged") and yet change a
peak: `1 + 3` is to become `2`; the first peak cannot be halved but the second can.  The second attempt should
scale the second peak by 1/3; it scales the first one by 1/3, raises inside, and the handler does not
restore it. -/
theorem c57_false_but_changed :
    ∃ (sc : Part ℚ → ℚ → ℚ → Res (List ℚ)), ScaleLen sc ∧
      (matchAt sc boxVal [box 1 true, box 3 true] 0 2).1 = false ∧
      ((matchAt sc boxVal [box 1 true, box 3 true] 0 2).2.map (fun p => p.pars)) = [[1 / 3], [3]] := by
  refine ⟨fun p _ s => if p.pars.headD 0 = 1 ∧ s = 1 / 2 then .error .scaling
    else .ok (p.pars.map (s * ·)), ?_, ?_, ?_⟩
  · intro p x s adj h
    simp only at h
    split at h
    · simp at h
    · simp only [Except.ok.injEq] at h; subst h; simp
  · decide +kernel
  · decide +kernel

end Verif.PeakList
