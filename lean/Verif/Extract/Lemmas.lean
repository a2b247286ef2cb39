import Verif.Extract.Model
import Verif.ModelCluster.Augment
import Verif.Cluster.LoopProps
import Verif.Extraction.Vars

/-!
# Lemmas on the steps of `extract_single`: what each keeps
-/

set_option linter.unusedSectionVars false

namespace Verif.Parts.Extract

open Verif.Py Verif.PeakList Verif.Parts.ModelCluster

variable {K : Type} [Field K] [LinearOrder K]

/-- Scaling a peak keeps the number of its parameters. -/
def Scales (sc : Part K → K → K → Res (List K)) : Prop := ∀ p x s v, sc p x s = .ok v → v.length = p.pars.length

/-- What is known of the numerics: the optimiser changes parameter values only, the clean-up removes removable
peaks only, argsort sorts. -/
structure Sane (W : World K) : Prop where
  sorts : SortsKeys W.as
  scales : Scales W.sc
  tame : ∀ c, Tame (W.env c)
  ptame : ∀ c out, Tame ((W.pruneEnv c).env out)
  ctame : ∀ c, Tame ((final W).env c)

theorem Sane.final {W : World K} (h : Sane W) : Sane (final W) := ⟨h.sorts, h.scales, h.ctame, h.ptame, h.ctame⟩

/-- The key of a peak: function, flags of free parameters, removable, static owner, as many values as the function needs. -/
abbrev Key (K : Type) := Owner K × List Bool × Bool × Bool × Prop × ((ℕ → K → K) → ℕ → Option K)

/-- All peaks satisfy `Q`, a condition on what identifies a peak beside its parameter values. -/
def Keys (Q : Key K → Prop) (m : List (Part K)) : Prop := ∀ p ∈ m, Q (key p)

theorem Keys.of_sub {Q : Key K → Prop} {m m' : List (Part K)} (h : Keys Q m)
    (hs : (m'.map key).Subperm (m.map key)) : Keys Q m' := by
  intro p hp
  have : key p ∈ m.map key := hs.subset (List.mem_map.2 ⟨p, hp, rfl⟩)
  obtain ⟨q, hq, e⟩ := List.mem_map.1 this
  rw [← e]; exact h q hq

theorem Keys.of_kept {Q : Key K → Prop} {m m' : List (Part K)} (h : Keys Q m) (hk : Kept m m') : Keys Q m' :=
  h.of_sub hk.sub

theorem Keys.append {Q : Key K → Prop} {a b : List (Part K)} (h1 : Keys Q a) (h2 : Keys Q b) : Keys Q (a ++ b) := by
  intro p hp
  rcases List.mem_append.1 hp with h | h
  · exact h1 p h
  · exact h2 p h

theorem Keys.nil {Q : Key K → Prop} : Keys Q ([] : List (Part K)) := by intro p hp; simp at hp

theorem Keys.mono {Q R : Key K → Prop} {m : List (Part K)} (h : Keys Q m) (hi : ∀ k, Q k → R k) : Keys R m :=
  fun p hp => hi _ (h p hp)

theorem Keys.of_subset {Q : Key K → Prop} {m m' : List (Part K)} (h : Keys Q m) (hs : ∀ p ∈ m', p ∈ m) : Keys Q m' :=
  fun p hp => h p (hs p hp)

/-! ### fit -/

theorem forall₂_dropLast {α β : Type} {R : α → β → Prop} {l : List α} {b : α} {m : List β}
    (h : List.Forall₂ R (l ++ [b]) m) : List.Forall₂ R l m.dropLast ∧ ∃ c, m.getLast? = some c ∧ R b c := by
  induction l generalizing m with
  | nil =>
    cases h with
    | cons h1 h2 => cases h2; exact ⟨.nil, _, rfl, h1⟩
  | cons a l ih =>
    cases h with
    | @cons _ b' _ m' h1 h2 =>
      obtain ⟨i1, c, i2, i3⟩ := ih h2
      have hne : m' ≠ [] := by rintro rfl; simp at i2
      refine ⟨?_, c, ?_, i3⟩
      · rw [List.dropLast_cons_of_ne_nil hne]; exact .cons h1 i1
      · obtain ⟨d, m'', rfl⟩ := List.exists_cons_of_ne_nil hne
        rw [List.getLast?_cons_cons]; exact i2

/-- How the baseline may change in a fit: not at all, or — if it is fitted — in its parameter values. -/
def BaseKept (o : Opts) (b b' : Option (Part K)) : Prop :=
  b' = b ∨ (o.fitbaseline = true ∧ ∃ p p', b = some p ∧ b' = some p' ∧ Frame p p')

theorem launch_frame {E : Env K} (hT : Tame E) (o : Opts) (c : Cluster K) :
    List.Forall₂ Frame c.model (launch E o c).2.1 ∧ BaseKept o c.baseline (launch E o c).2.2 := by
  unfold launch
  cases hb : fitBaseline o c with
  | none => exact ⟨hT.frame _, Or.inl rfl⟩
  | some b =>
    obtain ⟨h1, p', h2, h3⟩ := forall₂_dropLast (hT.frame (c.model ++ [b]))
    refine ⟨h1, Or.inr ⟨?_, b, p', ?_, h2, h3⟩⟩
    · unfold fitBaseline at hb
      split at hb
      · split at hb
        · rename_i h; exact h.1
        · simp at hb
      · simp at hb
    · unfold fitBaseline at hb
      split at hb
      · split at hb
        · rename_i b' heq _; rw [heq]; simpa using hb
        · simp at hb
      · simp at hb

theorem fitCore_data {E : Env K} (hT : Tame E) (o : Opts) (c : Cluster K) :
    SameData c (fitCore E o c).2.1 ∧ Kept c.model (fitCore E o c).2.1.model ∧
    BaseKept o c.baseline (fitCore E o c).2.1.baseline := by
  obtain ⟨hf, hb⟩ := launch_frame hT o c
  unfold fitCore
  generalize launch E o c = L at hf hb
  obtain ⟨a, m0, bl⟩ := L
  simp only at hf hb
  have hk := Kept.of_frame hf
  have hm : Kept c.model (E.clean (sort E.as false pos m0)) := by
    refine hk.trans ((Kept.of_perm (c37_sort hT.sorts false pos _).1).trans ?_)
    exact Kept.of_sublist (hT.clean _) (hT.hard _)
  have sd : ∀ m b n, SameData c { c with lastFit := n, model := m, baseline := b } :=
    fun m b n => ⟨rfl, rfl, rfl, rfl, rfl, rfl, rfl, rfl, rfl, rfl⟩
  cases a with
  | error e =>
    cases e <;> first
      | exact ⟨⟨rfl, rfl, rfl, rfl, rfl, rfl, rfl, rfl, rfl, rfl⟩, Kept.refl _, Or.inl rfl⟩
      | exact ⟨⟨rfl, rfl, rfl, rfl, rfl, rfl, rfl, rfl, rfl, rfl⟩, hk, hb⟩
  | ok u =>
    simp only
    split
    · exact ⟨⟨rfl, rfl, rfl, rfl, rfl, rfl, rfl, rfl, rfl, rfl⟩, hm, hb⟩
    · exact ⟨⟨rfl, rfl, rfl, rfl, rfl, rfl, rfl, rfl, rfl, rfl⟩, Kept.refl _, Or.inl rfl⟩
    · split
      · exact ⟨⟨rfl, rfl, rfl, rfl, rfl, rfl, rfl, rfl, rfl, rfl⟩, Kept.refl _, Or.inl rfl⟩
      · exact ⟨⟨rfl, rfl, rfl, rfl, rfl, rfl, rfl, rfl, rfl, rfl⟩, hm, hb⟩

theorem sameData_model {c d : Cluster K} {m : List (Part K)} (h : SameData { c with model := m } d) :
    SameData c d := ⟨h.r, h.y, h.err, h.rId, h.yId, h.eId, h.method, h.funcs, h.slice, h.neverFit⟩

/-- What any fit does to the cluster, however it ends. -/
theorem fit_data {E : Env K} (hT : Tame E) (o : Opts) (c : Cluster K) :
    SameData c (ModelCluster.fit E o c).2.1 ∧
    (Kept c.model (ModelCluster.fit E o c).2.1.model ∨
      (c.model = [] ∧ o.estimate = true ∧ ∃ p, E.estimate = .ok (some p) ∧
        Kept [p] (ModelCluster.fit E o c).2.1.model)) ∧
    BaseKept o c.baseline (ModelCluster.fit E o c).2.1.baseline := by
  unfold ModelCluster.fit
  by_cases hn : c.neverFit = true
  · rw [if_pos hn]; exact ⟨SameData.refl c, Or.inl (Kept.refl _), Or.inl rfl⟩
  rw [if_neg hn]
  by_cases h0 : c.model = []
  · rw [if_pos h0]
    by_cases he : o.estimate = true
    · rw [if_pos he]
      unfold estimatepeak
      cases hest : E.estimate with
      | error e =>
        cases e <;> exact ⟨⟨rfl, rfl, rfl, rfl, rfl, rfl, rfl, rfl, rfl, rfl⟩, Or.inl (Kept.refl _), Or.inl rfl⟩
      | ok op =>
        cases op with
        | none =>
          obtain ⟨a, b, d⟩ := fitCore_data hT o { c with model := c.model }
          exact ⟨a, Or.inl b, d⟩
        | some p =>
          have hr : replacepeaks E.as c.model [p] 0 0 = (.ok (), [p]) := by
            have hsort : sort E.as false pos [p] = [p] :=
              List.perm_singleton.1 (c37_sort hT.sorts false pos [p]).1
            unfold replacepeaks
            rw [h0]
            simp [getSlice, bounds, hsort]
          simp only [hr]
          obtain ⟨a, b, d⟩ := fitCore_data hT o { c with model := [p] }
          exact ⟨sameData_model a, Or.inr ⟨h0, he, p, rfl, b⟩, d⟩
    · rw [if_neg he]
      exact ⟨SameData.refl c, Or.inl (Kept.refl _), Or.inl rfl⟩
  · rw [if_neg h0]
    obtain ⟨a, b, d⟩ := fitCore_data hT o c
    exact ⟨a, Or.inl b, d⟩

/-! ### The invariant of a cluster -/

/-- The cluster is over the data `(r, y, err)`, with baseline `bl`, evaluator and functions of the job, and its
peaks satisfy `Q`. -/
structure Of (J : Job K) (Q : Key K → Prop) (r y err : List K) (bl : Option (Part K)) (c : Cluster K) : Prop where
  r : c.r = r
  y : c.y = y
  err : c.err = err
  bl : c.baseline = bl
  ids : c.rId = 0 ∧ c.yId = 0 ∧ c.eId = 0
  method : c.method = J.method
  funcs : ∀ f ∈ c.funcs, f ∈ J.funcs
  keys : Keys Q c.model

/-- Every peak that is estimated for a cluster with functions of the job satisfies `Q`. -/
def Supplies (W : World K) (J : Job K) (Q : Key K → Prop) : Prop :=
  ∀ c p, (∀ f ∈ c.funcs, f ∈ J.funcs) → (W.env c).estimate = .ok (some p) → Q (key p)

variable {W : World K} {J : Job K} {Q : Key K → Prop} {r y err : List K} {bl : Option (Part K)}

theorem Of.same {c d : Cluster K} (h : Of J Q r y err bl c) (hs : SameData c d) (hb : d.baseline = c.baseline)
    (hk : Keys Q d.model) : Of J Q r y err bl d :=
  ⟨by rw [hs.r, h.r], by rw [hs.y, h.y], by rw [hs.err, h.err], by rw [hb, h.bl],
    by rw [hs.rId, hs.yId, hs.eId]; exact h.ids, by rw [hs.method, h.method],
    by rw [hs.funcs]; exact h.funcs, hk⟩

theorem fit_keys (hS : Sane W) (hQ : Supplies W J Q) {o : Opts} {c : Cluster K}
    (hf : ∀ f ∈ c.funcs, f ∈ J.funcs) (hk : Keys Q c.model) :
    Keys Q (ModelCluster.fit (W.env c) o c).2.1.model := by
  obtain ⟨-, h, -⟩ := fit_data (hS.tame c) o c
  rcases h with h | ⟨-, -, p, hp, h⟩
  · exact hk.of_kept h
  · refine Keys.of_kept (m := [p]) ?_ h
    intro q hq
    rw [List.mem_singleton.1 hq]
    exact hQ c p hf hp

/-- A fit that returns, without the baseline. -/
theorem fitted_of (hS : Sane W) (hQ : Supplies W J Q) {o : Opts} (ho : o.fitbaseline = false) {c d : Cluster K}
    (h : Of J Q r y err bl c) (hd : fitted W o c = .ok d) :
    Of J Q r y err bl d ∧ d.slice = c.slice ∧ d.neverFit = c.neverFit := by
  obtain ⟨a, -, b⟩ := fit_data (hS.tame c) o c
  have hk := fit_keys hS hQ (o := o) h.funcs h.keys
  unfold fitted at hd
  generalize ModelCluster.fit (W.env c) o c = F at a b hk hd
  obtain ⟨u, d', l⟩ := F
  cases u with
  | error e => simp at hd
  | ok u =>
    simp only [Except.ok.injEq] at hd
    subst hd
    refine ⟨h.same a ?_ hk, a.slice, a.neverFit⟩
    rcases b with b | ⟨b, -⟩
    · exact b
    · rw [ho] at b; simp at b

theorem contingent_of (hS : Sane W) (hQ : Supplies W J Q) {n : ℕ} {c d : Cluster K}
    (h : Of J Q r y err bl c) (hd : contingent W n c = .ok d) :
    Of J Q r y err bl d ∧ d.slice = c.slice ∧ d.neverFit = c.neverFit := by
  unfold contingent contingentFit at hd
  by_cases hn : c.neverFit = true
  · rw [if_pos hn] at hd
    simp only [Except.ok.injEq] at hd
    subst hd; exact ⟨h, rfl, rfl⟩
  rw [if_neg hn] at hd
  split at hd
  · exact absurd hd (by simp)
  · rename_i u c' l heq
    simp only [Except.ok.injEq] at hd
    subst hd
    split at heq
    · refine fitted_of hS hQ (o := { justify := true }) rfl h ?_
      unfold fitted
      rw [heq]
    · simp only [Prod.mk.injEq, Except.ok.injEq] at heq
      rw [← heq.2.1]; exact ⟨h, rfl, rfl⟩

theorem changeSlice_ok {ex : List K} {c d : Cluster K} {s : Slice} {u : Unit}
    (h : changeSlice ex c s = (.ok u, d)) : ∃ b, d = { c with slice := some s, neverFit := b } ∧
      updateNever ex c.neverFit c.slice s = .ok b := by
  unfold changeSlice at h
  split at h
  · simp at h
  · rename_i b heq
    simp only [Prod.mk.injEq] at h
    exact ⟨b, h.2.symm, heq⟩

theorem newCluster_of {m : List (Part K)} {s : Option Slice} {d : Cluster K} (hk : Keys Q m)
    (hd : newCluster W J m bl r y err s = .ok d) :
    Of J Q r y err bl d ∧ d.slice = some (s.getD ⟨none, r.length⟩) ∧ d.model = m ∧ d.lastFit = 0 := by
  unfold newCluster at hd
  simp only at hd
  split at hd
  · simp at hd
  · rename_i c' heq
    obtain ⟨b, e, -⟩ := changeSlice_ok heq
    simp only [Except.ok.injEq] at hd
    subst hd
    rw [e]
    exact ⟨⟨rfl, rfl, rfl, rfl, ⟨rfl, rfl, rfl⟩, rfl, fun f hf => hf, hk⟩, rfl, rfl, rfl⟩

theorem reslice_of {c d : Cluster K} {s : ℕ × ℕ} (h : Of J Q r y err bl c) (hd : reslice W c s = .ok d) :
    Of J Q r y err bl d ∧ d.slice = some ⟨some s.1, s.2⟩ := by
  unfold reslice at hd
  split at hd
  · simp at hd
  · rename_i c' heq
    obtain ⟨b, e, -⟩ := changeSlice_ok heq
    simp only [Except.ok.injEq] at hd
    subst hd
    rw [e]
    exact ⟨⟨h.r, h.y, h.err, h.bl, h.ids, h.method, h.funcs, h.keys⟩, rfl⟩

theorem copyOf_of {c d : Cluster K} (h : Of J Q r y err bl c) (hd : copyOf W c = .ok d) :
    Of J Q r y err bl d ∧ d.slice = c.slice ∧ d.model = c.model := by
  unfold copyOf copy at hd
  cases hs : c.slice with
  | none => rw [hs] at hd; simp at hd
  | some s =>
    rw [hs] at hd
    simp only at hd
    split at hd
    · simp at hd
    · rename_i c' heq
      obtain ⟨b, e, -⟩ := changeSlice_ok heq
      simp only [Except.ok.injEq] at hd
      subst hd
      rw [e]
      exact ⟨⟨h.r, h.y, h.err, h.bl, h.ids, h.method, h.funcs, h.keys⟩, rfl, rfl⟩

theorem replace0 (as : List K → List ℕ) (m new : List (Part K)) :
    replacepeaks as m new 0 0 = (.ok (), sort as false pos (new ++ m)) := by
  unfold replacepeaks
  simp [getSlice, bounds]

theorem withPeaks_eq (c : Cluster K) (other new : List (Part K)) :
    withPeaks W c other new = .ok { c with model := sort W.as false pos (new ++ other) } := by
  unfold withPeaks; rw [replace0]

theorem keys_sort (hS : Sane W) {m : List (Part K)} (h : Keys Q m) : Keys Q (sort W.as false pos m) :=
  h.of_kept (Kept.of_perm (c37_sort hS.sorts false pos m).1)

theorem withPeaks_of (hS : Sane W) {c d : Cluster K} {other new : List (Part K)} (h : Of J Q r y err bl c)
    (h1 : Keys Q other) (h2 : Keys Q new) (hd : withPeaks W c other new = .ok d) :
    Of J Q r y err bl d ∧ d.slice = c.slice ∧ d.neverFit = c.neverFit ∧ d.model.Perm (new ++ other) ∧
      d.model.Pairwise (fun p q => pos p ≤ pos q) := by
  rw [withPeaks_eq] at hd
  simp only [Except.ok.injEq] at hd
  subst hd
  have := c37_sort hS.sorts false pos (new ++ other)
  exact ⟨⟨h.r, h.y, h.err, h.bl, h.ids, h.method, h.funcs, keys_sort hS (h2.append h1)⟩, rfl, rfl, this.1, this.2⟩

/-! ### match_at, reduce_to -/

theorem fixedChanged_false : ∀ (a b : List K) (f : List Bool), a.length = b.length → fixedChanged a b f = false →
    ∀ i : ℕ, f[i]? = some false → b[i]? = a[i]?
  | [], [], _, _, _, i, _ => rfl
  | [], _ :: _, _, h, _, _, _ => by simp at h
  | _ :: _, [], _, h, _, _, _ => by simp at h
  | _ :: _, _ :: _, [], _, _, _, hi => by simp at hi
  | a :: as, b :: bs, f :: fs, h, hf, i, hi => by
    simp only [fixedChanged, Bool.or_eq_false_iff, Bool.and_eq_false_iff, Bool.not_eq_eq_eq_not, Bool.not_false] at hf
    cases i with
    | zero =>
      simp only [List.getElem?_cons_zero, Option.some.injEq] at hi ⊢
      rcases hf.1 with h1 | h1
      · simp only [ne_eq, decide_not, Bool.not_eq_eq_eq_not, Bool.not_false, decide_eq_true_eq] at h1
        exact h1.symm
      · rw [hi] at h1; simp at h1
    | succ i =>
      simp only [List.getElem?_cons_succ] at hi ⊢
      exact fixedChanged_false as bs fs (by simpa using h) hf.2 i hi

theorem scaleAt_key {sc : Part K → K → K → Res (List K)} (hsc : Scales sc) (p : Part K) (x s : K) :
    key (scaleAt sc p x s).2 = key p := by
  unfold scaleAt
  split
  · rfl
  · split
    · rfl
    · rfl
    · rename_i adj ha
      split
      · rfl
      · rename_i hfc
        unfold key
        rw [shaped_pars (p := p) (q := { p with pars := adj }) rfl rfl (hsc _ _ _ _ ha),
          fixed_pars (p := p) (q := { p with pars := adj }) rfl rfl
            (fixedChanged_false _ _ _ (hsc _ _ _ _ ha).symm (by simpa using hfc))]

theorem firstAttempt_keys {sc : Part K → K → K → Res (List K)} (hsc : Scales sc) (val : Part K → K → K) (x s : K)
    (ps : List (Part K)) : (firstAttempt sc val x s ps).2.map key = ps.map key := by
  induction ps with
  | nil => rfl
  | cons p ps ih =>
    have hp := scaleAt_key hsc p x s
    unfold firstAttempt
    generalize scaleAt sc p x s = S at hp
    obtain ⟨b, p'⟩ := S
    simp only at hp
    cases b with
    | error e => simp only [List.map_cons, hp]
    | ok b =>
      simp only
      generalize firstAttempt sc val x s ps = F at ih
      obtain ⟨a, ps'⟩ := F
      simp only at ih
      cases a with
      | error e => simp only [List.map_cons, hp, ih]
      | ok a => obtain ⟨bs, h⟩ := a; simp only [List.map_cons, hp, ih]

theorem matchAt_keys {sc : Part K → K → K → Res (List K)} (hsc : Scales sc) (val : Part K → K → K) (ps : List (Part K)) (x y : K) :
    (matchAt sc val ps x y).2.map key = ps.map key := by
  unfold matchAt
  simp only
  by_cases h0 : valueAt val ps x = 0
  · rw [if_pos h0]
  rw [if_neg h0]
  have hf := firstAttempt_keys hsc val x (y / valueAt val ps x) ps
  generalize firstAttempt sc val x (y / valueAt val ps x) ps = F at hf
  obtain ⟨a, ps'⟩ := F
  simp only at hf
  cases a with
  | error e => rfl
  | ok a =>
    obtain ⟨scaled, fh⟩ := a
    simp only
    split
    · split
      · rename_i p0 p1 _ s1 _
        by_cases h1 : p1.pars.length = 0
        · rw [if_pos h1]
          simp only
          split <;> rfl
        · rw [if_neg h1]
          have hp := scaleAt_key hsc p0 x ((y - fh) / (valueAt val [p0, p1] x - fh))
          generalize scaleAt sc p0 x ((y - fh) / (valueAt val [p0, p1] x - fh)) = S at hp
          obtain ⟨b, p'⟩ := S
          simp only at hp
          cases b with
          | error e => simp [hp]
          | ok b => simp only; split <;> simp [hp]
      · rfl
    · exact hf

theorem matchAt_Keys (hS : Sane W) {m : List (Part K)} (h : Keys Q m) (x y : K) : Keys Q (matchAt W.sc W.val m x y).2 :=
  h.of_sub (by rw [matchAt_keys hS.scales])

theorem reduced_of (hS : Sane W) (hQ : Supplies W J Q) {c d : Cluster K} {a b : K} (h : Of J Q r y err bl c)
    (hd : reduced W c a b = .ok d) : Of J Q r y err bl d ∧ d.slice = c.slice := by
  unfold reduced reduceTo at hd
  by_cases hv : valueAt W.val c.model a < b
  · rw [if_pos hv] at hd
    simp only [Except.ok.injEq] at hd
    subst hd; exact ⟨h, rfl⟩
  rw [if_neg hv] at hd
  simp only at hd
  have hm : Keys Q (matchAt W.sc W.val c.model a (b - valuebl W c.baseline a)).2 := matchAt_Keys hS h.keys _ _
  generalize (matchAt W.sc W.val c.model a (b - valuebl W c.baseline a)).2 = m at hd hm
  obtain ⟨s1, s2, s3⟩ := fit_data (hS.tame c) {} { c with model := m }
  have hk : Keys Q (ModelCluster.fit (W.env c) {} { c with model := m }).2.1.model := by
    rcases s2 with s2 | ⟨-, -, p, hp, s2⟩
    · exact hm.of_kept s2
    · refine Keys.of_kept (m := [p]) ?_ s2
      intro q hq
      rw [List.mem_singleton.1 hq]
      exact hQ c p h.funcs hp
  generalize ModelCluster.fit (W.env c) {} { c with model := m } = F at hd s1 s3 hk
  obtain ⟨u, d', l⟩ := F
  have hb : d'.baseline = c.baseline := by
    rcases s3 with b | ⟨b, -⟩
    · exact b
    · simp at b
  have s1 := sameData_model s1
  have hO : Of J Q r y err bl d' := h.same s1 hb hk
  have hO' : Of J Q r y err bl { d' with model := c.model } :=
    ⟨hO.r, hO.y, hO.err, hO.bl, hO.ids, hO.method, hO.funcs, h.keys⟩
  cases u with
  | error e => simp at hd
  | ok u =>
    cases u with
    | none =>
      simp only [Except.ok.injEq] at hd
      subst hd; exact ⟨hO', s1.slice⟩
    | some q =>
      simp only at hd
      split at hd
      · simp at hd
      · rename_i v c'' heq
        simp only [Except.ok.injEq] at hd
        subst hd
        split at heq
        · simp only [Prod.mk.injEq] at heq
          rw [← heq.2]; exact ⟨hO', s1.slice⟩
        · simp only [Prod.mk.injEq] at heq
          rw [← heq.2]; exact ⟨hO, s1.slice⟩

/-! ### augment, prune -/

theorem augmented_keys (hS : Sane W) (hQ : Supplies W J Q) {c d : Cluster K} {src : List (Part K)}
    (hf : ∀ f ∈ c.funcs, f ∈ J.funcs) (hk : Keys Q c.model) (hs : Keys Q src)
    (hd : augmented W c src = .ok d) : Keys Q d.model := by
  have := c60_augment_peaks (W.env c) (hS.tame c) W.pick c src
  unfold augmented at hd
  generalize augment (W.env c) W.pick c src = A at hd this
  obtain ⟨u, d'⟩ := A
  cases u with
  | error e => simp at hd
  | ok u =>
    simp only [Except.ok.injEq] at hd
    subst hd
    rcases this with h | ⟨p, hp, h⟩
    · exact (hk.append hs).of_sub h
    · refine Keys.of_sub (m := [p]) ?_ h
      intro q hq
      rw [List.mem_singleton.1 hq]
      exact hQ c p hf hp

theorem pruned_of (hS : Sane W) {c d : Cluster K} (hd : pruned W J c = .ok d) :
    d = { c with model := d.model } ∧ Kept c.model d.model := by
  unfold pruned at hd
  by_cases h0 : c.model = []
  · rw [if_pos h0] at hd
    simp only [Except.ok.injEq] at hd
    subst hd; exact ⟨rfl, Kept.refl _⟩
  rw [if_neg h0] at hd
  cases hs : c.slice with
  | none => rw [hs] at hd; simp at hd
  | some s =>
    rw [hs] at hd
    simp only at hd
    split at hd
    · simp at hd
    · rename_i mc _
      have := c29_prune_keeps (W.pruneEnv c) (hS.ptame c) W.pick mc c.model
      generalize prune (W.pruneEnv c) W.pick mc c.model = P at hd this
      obtain ⟨u, m⟩ := P
      cases u with
      | error e => simp at hd
      | ok u =>
        simp only [Except.ok.injEq] at hd
        subst hd
        exact ⟨by rw [← hs], this.1, this.2⟩

end Verif.Parts.Extract
