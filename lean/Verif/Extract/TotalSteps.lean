import Verif.Extract.Join
import Verif.ModelCluster.Total

/-!
# Steps of the search raise nothing but ValueError, and nothing at all when peaks stay right of the data's start
-/

set_option linter.unusedSectionVars false

namespace Verif.Parts.Extract

open Verif.Py Verif.PeakList Verif.Parts.ModelCluster

variable {K : Type} [Field K] [LinearOrder K]

/-- Numerics that behave: a fit (of at least one part) that fails raises SrMiseFitError, or TypeError if a covariance is asked for (see
`c18_singular_cov_type_error`), an estimate is a peak or
raises SrMiseEstimationError, every model can be evaluated (by one method for each `error_method`), `argsort()[-1]` is an index, a baseline equals itself. -/
structure Calm (W : World K) : Prop where
  sorts : ∀ c, SortsKeys (W.env c).as ∧ ∀ out, SortsKeys ((W.pruneEnv c).env out).as
  fit : ∀ c m e, m ≠ [] → ((W.env c).lsq m).1 = .error e → e = .fit
  pfit : ∀ c out m e, m ≠ [] → (((W.pruneEnv c).env out).lsq m).1 = .error e → e = .fit
  cfit : ∀ c m e, m ≠ [] → (W.covLsq c m).1 = .error e → e = .fit ∨ e = .type
  est : ∀ c, (W.env c).estimate = .error .estimation ∨ ∃ p, (W.env c).estimate = .ok (some p)
  rated : ∀ k, ∃ meth : String, ∀ c, c.method = k → (∀ m b, Rated meth ((W.env c).quality m b)) ∧
    ∀ out m, (∀ b, Rated meth (((W.pruneEnv c).env out).quality m b)) ∧
      ∀ i, Rated meth ((W.pruneEnv c).qual out m i)
  pick : PicksOne W.pick
  eqv : ∀ b, W.eqv (some b) (some b) = true

/-- A covariance can always be had. -/
def Regular (W : World K) : Prop := ∀ c m, m ≠ [] → (W.covLsq c m).1 ≠ .error .type

/-- `v` is the first coordinate of the data of the cluster. -/
def Starts (c : Cluster K) (v : K) : Prop := ∃ s, c.slice = some s ∧ (s.get c.r).head? = some v

/-- Peaks stay where the data are: no peak right of the first point of a cluster is fitted onto or beyond it, none is
estimated there, and scaling a peak does not move it. -/
structure Confined (W : World K) : Prop where
  fit : ∀ c v, Starts c v → Closed (W.env c) (fun p => v < pos p)
  est : ∀ c v, Starts c v → ∀ p, (W.env c).estimate = .ok (some p) → v < pos p
  pfit : ∀ c v, Starts c v → ∀ out, Closed ((W.pruneEnv c).env out) (fun p => v < pos p)
  still : ∀ p a s l, W.sc p a s = .ok l → pos { p with pars := l } = pos p

/-- A step ends: it returns something satisfying `P`, or, if `V`, raises ValueError. -/
def Ends {α : Type} (V : Prop) (r : Res α) (P : α → Prop) : Prop :=
  (∃ d, r = .ok d ∧ P d) ∨ (V ∧ r = .error .value)

theorem Ends.ok {α : Type} {V : Prop} {r : Res α} {P : α → Prop} (h : ∃ d, r = .ok d ∧ P d) : Ends V r P := Or.inl h

theorem Ends.bind {α β : Type} {V : Prop} {a : Res α} {f : α → Res β} {P : α → Prop} {R : β → Prop}
    (h : Ends V a P) (hf : ∀ d, a = .ok d → P d → Ends V (f d) R) : Ends V (a >>= f) R := by
  rcases h with ⟨d, h1, h2⟩ | ⟨hV, h⟩
  · have h1' := h1
    subst h1
    exact hf d rfl h2
  · subst h
    exact Or.inr ⟨hV, rfl⟩

theorem Ends.step {α β : Type} {V : Prop} {a : Res α} {f : α → Res β} {R : β → Prop} {d : α} (h : a = .ok d)
    (hf : Ends V (f d) R) : Ends V (a >>= f) R := by
  subst h; exact hf

theorem Ends.mono {α : Type} {V : Prop} {r : Res α} {P R : α → Prop} (h : Ends V r P)
    (hi : ∀ d, r = .ok d → P d → R d) : Ends V r R := by
  rcases h with ⟨d, h1, h2⟩ | h
  · exact Or.inl ⟨d, h1, hi d h1 h2⟩
  · exact Or.inr h

/-- A step ends, or, if `T`, raises TypeError. -/
def EndsOr {α : Type} (V T : Prop) (r : Res α) (P : α → Prop) : Prop := Ends V r P ∨ (T ∧ r = .error .type)

theorem EndsOr.bind {α β : Type} {V T : Prop} {a : Res α} {f : α → Res β} {P : α → Prop} {R : β → Prop}
    (h : Ends V a P) (hf : ∀ d, a = .ok d → P d → EndsOr V T (f d) R) : EndsOr V T (a >>= f) R := by
  rcases h with ⟨d, h1, h2⟩ | ⟨hV, h⟩
  · subst h1
    exact hf d rfl h2
  · subst h
    exact Or.inl (Or.inr ⟨hV, rfl⟩)

theorem EndsOr.step {α β : Type} {V T : Prop} {a : Res α} {f : α → Res β} {R : β → Prop} {d : α} (h : a = .ok d)
    (hf : EndsOr V T (f d) R) : EndsOr V T (a >>= f) R := by
  subst h; exact hf

theorem EndsOr.mono {α : Type} {V T U : Prop} {r : Res α} {P R : α → Prop} (h : EndsOr V T r P) (hT : T → U)
    (hi : ∀ d, r = .ok d → P d → R d) : EndsOr V U r R := by
  rcases h with h | ⟨h, e⟩
  · exact Or.inl (h.mono hi)
  · exact Or.inr ⟨hT h, e⟩

/-- All peaks right of `v`, unless `V`. -/
def Right (V : Prop) (v : K) (m : List (Part K)) : Prop := V ∨ ∀ p ∈ m, v < pos p

/-- In order and right of `v`, unless `V`. -/
def Neat (V : Prop) (v : K) (m : List (Part K)) : Prop := V ∨ (Ordered m ∧ ∀ p ∈ m, v < pos p)

theorem Neat.right {V : Prop} {v : K} {m : List (Part K)} (h : Neat V v m) : Right V v m := h.imp_right And.right

theorem Right.append {V : Prop} {v : K} {a b : List (Part K)} (h1 : Right V v a) (h2 : Right V v b) : Right V v (a ++ b) := by
  rcases h1 with h | h1
  · exact Or.inl h
  rcases h2 with h | h2
  · exact Or.inl h
  right
  intro p hp
  rcases List.mem_append.1 hp with h | h
  · exact h1 p h
  · exact h2 p h

theorem Right.subset {V : Prop} {v : K} {a b : List (Part K)} (h : Right V v a) (hs : ∀ p ∈ b, p ∈ a) : Right V v b :=
  h.imp_right (fun h p hp => h p (hs p hp))

theorem Right.weaken {V : Prop} {v w : K} {a : List (Part K)} (h : Right V v a) (hw : w ≤ v) : Right V w a :=
  h.imp_right (fun h p hp => lt_of_le_of_lt hw (h p hp))

theorem Neat.weaken {V : Prop} {v w : K} {a : List (Part K)} (h : Neat V v a) (hw : w ≤ v) : Neat V w a :=
  h.imp_right (fun h => ⟨h.1, fun p hp => lt_of_le_of_lt hw (h.2 p hp)⟩)

theorem Neat.nil (V : Prop) (v : K) : Neat V v ([] : List (Part K)) := Or.inr ⟨List.Pairwise.nil, by simp⟩

variable {W : World K} {J : Job K} {Q : Key K → Prop} {r y err : List K} {bl : Option (Part K)} {V : Prop}

theorem Calm.quiet (hC : Calm W) (c : Cluster K) : ∃ meth, Quiet meth (W.env c) := by
  obtain ⟨meth, h⟩ := hC.rated c.method
  exact ⟨meth, (hC.sorts c).1, hC.fit c, hC.est c, (h c rfl).1⟩

theorem Calm.pquiet (hC : Calm W) (c : Cluster K) : ∃ meth, PQuiet meth (W.pruneEnv c) := by
  obtain ⟨meth, h⟩ := hC.rated c.method
  exact ⟨meth, (hC.sorts c).2, hC.pfit c, fun out m b => ((h c rfl).2 out m).1 b, fun out m i => ((h c rfl).2 out m).2 i⟩

/-! ### fit -/

theorem fitted_any (hC : Calm W) (o : Opts) (c : Cluster K) : ∃ d, fitted W o c = .ok d := by
  obtain ⟨meth, hq⟩ := hC.quiet c
  obtain ⟨q, h⟩ := fit_total hq o c
  unfold fitted
  generalize ModelCluster.fit (W.env c) o c = F at h
  obtain ⟨a, d, l⟩ := F
  simp only at h
  subst h
  exact ⟨d, rfl⟩

theorem fitted_last (hC : Calm W) (o : Opts) (c : Cluster K) :
    (∃ d, fitted (final W) o c = .ok d) ∨ (¬ Regular W ∧ fitted (final W) o c = .error .type) := by
  obtain ⟨meth, hq⟩ := hC.quiet c
  have h := fit_ends hq (hC.cfit c) o c
  have he : (final W).env c = { W.env c with lsq := W.covLsq c } := rfl
  unfold fitted
  rw [he]
  generalize ModelCluster.fit { W.env c with lsq := W.covLsq c } o c = F at h
  obtain ⟨a, d, l⟩ := F
  simp only at h
  rcases h with ⟨q, rfl⟩ | ⟨⟨m, hm, h⟩, rfl⟩
  · exact Or.inl ⟨d, rfl⟩
  · exact Or.inr ⟨fun hR => hR c m hm h, rfl⟩

theorem fit_right (hS : Sane W) (hV : V ∨ Confined W) {o : Opts} (ho : o.fitbaseline = false) {c : Cluster K}
    {m : List (Part K)} {v : K} (hs : Starts c v) (h : Right V v m) :
    Right V v (ModelCluster.fit (W.env c) o { c with model := m }).2.1.model := by
  rcases hV with hV | hV
  · exact Or.inl hV
  rcases h with h | h
  · exact Or.inl h
  exact Or.inr (fit_all (hS.tame c) (hV.fit c v hs) ho (fun _ => hV.est c v hs) { c with model := m } h).1

theorem fitted_tot (hS : Sane W) (hC : Calm W) (hV : V ∨ Confined W) {o : Opts} (ho : o.fitbaseline = false)
    {c : Cluster K} {v : K} (hs : Starts c v) :
    ∃ d, fitted W o c = .ok d ∧ (Right V v c.model → Right V v d.model) ∧ (Neat V v c.model → Neat V v d.model) := by
  obtain ⟨meth, hq⟩ := hC.quiet c
  obtain ⟨q, h⟩ := fit_total hq o c
  have h1 : Right V v c.model → Right V v (ModelCluster.fit (W.env c) o c).2.1.model := fit_right hS hV ho hs
  have h2 := fit_ordered (hS.tame c) hq ho c
  unfold fitted
  generalize ModelCluster.fit (W.env c) o c = F at h h1 h2
  obtain ⟨a, d, l⟩ := F
  simp only at h
  subst h
  refine ⟨d, rfl, h1, ?_⟩
  intro hn
  rcases h1 hn.right with h | h
  · exact Or.inl h
  · exact hn.imp_right (fun hn => ⟨h2 hn.1, h⟩)

theorem contingent_tot (hS : Sane W) (hC : Calm W) (hV : V ∨ Confined W) {n : ℕ} {c : Cluster K} {v : K} (hs : Starts c v) :
    ∃ d, contingent W n c = .ok d ∧ (Neat V v c.model → Neat V v d.model) := by
  unfold contingent contingentFit
  by_cases hn : c.neverFit = true
  · rw [if_pos hn]; exact ⟨_, rfl, fun h => h⟩
  rw [if_neg hn]
  split
  · rename_i e _ _ heq
    split at heq
    · obtain ⟨d, hd, -⟩ := fitted_tot hS hC hV (o := { justify := true }) rfl hs
      unfold fitted at hd
      rw [heq] at hd
      simp at hd
    · simp at heq
  · rename_i c' _ heq
    split at heq
    · obtain ⟨d, hd, -, h⟩ := fitted_tot hS hC hV (o := { justify := true }) rfl hs
      unfold fitted at hd
      rw [heq] at hd
      simp only [Except.ok.injEq] at hd
      rw [hd]
      exact ⟨d, rfl, h⟩
    · simp only [Prod.mk.injEq] at heq
      rw [← heq.2.1]; exact ⟨_, rfl, fun h => h⟩

/-! ### Positions under scaling -/

theorem scaleAt_pos (hV : Confined W) (p : Part K) (x s : K) : pos (scaleAt W.sc p x s).2 = pos p := by
  unfold scaleAt
  split
  · rfl
  · split
    · rfl
    · rfl
    · rename_i l hl
      split
      · rfl
      · exact hV.still p x s l hl

theorem firstAttempt_pos (hV : Confined W) (x s : K)
    (ps : List (Part K)) : (firstAttempt W.sc W.val x s ps).2.map pos = ps.map pos := by
  induction ps with
  | nil => rfl
  | cons p ps ih =>
    have hp := scaleAt_pos hV p x s
    unfold firstAttempt
    generalize scaleAt W.sc p x s = S at hp
    obtain ⟨b, p'⟩ := S
    simp only at hp
    cases b with
    | error e => simp only [List.map_cons, hp]
    | ok b =>
      simp only
      generalize firstAttempt W.sc W.val x s ps = F at ih
      obtain ⟨a, ps'⟩ := F
      simp only at ih
      cases a with
      | error e => simp only [List.map_cons, hp, ih]
      | ok a => obtain ⟨bs, h⟩ := a; simp only [List.map_cons, hp, ih]

theorem matchAt_pos (hV : Confined W) (ps : List (Part K)) (x y : K) :
    (matchAt W.sc W.val ps x y).2.map pos = ps.map pos := by
  unfold matchAt
  simp only
  by_cases h0 : valueAt W.val ps x = 0
  · rw [if_pos h0]
  rw [if_neg h0]
  have hf := firstAttempt_pos hV x (y / valueAt W.val ps x) ps
  generalize firstAttempt W.sc W.val x (y / valueAt W.val ps x) ps = F at hf
  obtain ⟨a, ps'⟩ := F
  simp only at hf
  cases a with
  | error e => rfl
  | ok a =>
    obtain ⟨scaled, fh⟩ := a
    simp only
    split
    · split
      · rename_i p0 p1 _ s1 _
        by_cases h1 : p1.pars.length = 0
        · rw [if_pos h1]
          simp only
          split <;> rfl
        · rw [if_neg h1]
          have hp := scaleAt_pos hV p0 x ((y - fh) / (valueAt W.val [p0, p1] x - fh))
          generalize scaleAt W.sc p0 x ((y - fh) / (valueAt W.val [p0, p1] x - fh)) = S at hp
          obtain ⟨b, p'⟩ := S
          simp only at hp
          cases b with
          | error e => simp [hp]
          | ok b => simp only; split <;> simp [hp]
      · rfl
    · exact hf

theorem right_of_pos {v : K} {a b : List (Part K)} (h : b.map pos = a.map pos) (ha : ∀ p ∈ a, v < pos p) :
    ∀ p ∈ b, v < pos p := by
  intro p hp
  have : pos p ∈ a.map pos := by rw [← h]; exact List.mem_map.2 ⟨p, hp, rfl⟩
  obtain ⟨q, hq, e⟩ := List.mem_map.1 this
  rw [← e]; exact ha q hq

theorem ordered_of_pos {a b : List (Part K)} (h : b.map pos = a.map pos) (ha : Ordered a) : Ordered b := by
  unfold Ordered at *
  rw [← List.pairwise_map (f := pos) (R := (· ≤ ·))] at *
  rwa [h]

theorem matchAt_right (hV : V ∨ Confined W) {m : List (Part K)} {v : K} (h : Right V v m) (x y : K) :
    Right V v (matchAt W.sc W.val m x y).2 := by
  rcases hV with hV | hV
  · exact Or.inl hV
  exact h.imp_right (right_of_pos (matchAt_pos hV m x y))

theorem reduced_tot (hS : Sane W) (hC : Calm W) (hV : V ∨ Confined W) {c : Cluster K} {v : K} (hs : Starts c v) (a b : K)
    (h : Right V v c.model) : ∃ d, reduced W c a b = .ok d ∧ Right V v d.model := by
  unfold reduced reduceTo
  by_cases hv : valueAt W.val c.model a < b
  · rw [if_pos hv]; exact ⟨_, rfl, h⟩
  rw [if_neg hv]
  simp only
  have hm := matchAt_right hV h a (b - valuebl W c.baseline a)
  generalize (matchAt W.sc W.val c.model a (b - valuebl W c.baseline a)).2 = m at hm
  obtain ⟨meth, hq⟩ := hC.quiet c
  obtain ⟨q, hf⟩ := fit_total hq {} { c with model := m }
  have h1 := fit_right hS hV (o := {}) rfl hs hm
  generalize ModelCluster.fit (W.env c) {} { c with model := m } = F at hf h1
  obtain ⟨u, d, l⟩ := F
  simp only at hf h1
  subst hf
  cases q with
  | none => exact ⟨_, rfl, h⟩
  | some q =>
    simp only
    split
    · rename_i heq
      split at heq
      · simp at heq
      · simp at heq
    · rename_i c'' heq
      split at heq
      · simp only [Prod.mk.injEq] at heq
        rw [← heq.2]; exact ⟨_, rfl, h⟩
      · simp only [Prod.mk.injEq] at heq
        rw [← heq.2]; exact ⟨_, rfl, h1⟩

/-! ### Making clusters -/

theorem excess_length {c : Cluster K} (hy : c.y.length = c.r.length) (he : c.err.length = c.r.length) :
    (excess W c).length = c.r.length := by
  unfold excess
  simp [hy, he]

theorem slice_ne {ex : List K} {a b : ℕ} (h1 : a < b) (h2 : a < ex.length) : getSlice ex (some (a, b)) ≠ [] := by
  intro h
  have := length_getSlice ex (some (a, b))
  rw [h] at this
  simp [bounds] at this
  omega

theorem maxNeg_total {l : List K} (h : l ≠ []) : ∃ b, maxNeg l = .ok b := by
  unfold maxNeg; rw [if_neg h]; exact ⟨_, rfl⟩

theorem changeSlice_first {ex : List K} {c : Cluster K} {s : Slice} (hc : c.slice = none) (h : s.get ex ≠ []) :
    ∃ d, changeSlice ex c s = (.ok (), d) := by
  obtain ⟨b, hb⟩ := maxNeg_total h
  unfold changeSlice updateNever
  rw [hc]
  simp only [hb]
  exact ⟨_, rfl⟩

theorem newCluster_part (m : List (Part K)) (bl : Option (Part K)) {r y err : List K} (hy : y.length = r.length)
    (he : err.length = r.length) {a b : ℕ} (h1 : a < b) (h2 : a < r.length) :
    ∃ d, newCluster W J m bl r y err (some ⟨some a, b⟩) = .ok d := by
  unfold newCluster
  simp only [Option.getD_some]
  obtain ⟨d, hd⟩ := changeSlice_first (ex := excess W ⟨m, bl, r, y, err, 0, 0, 0, J.method, J.funcs, none, 0, false⟩)
    (c := ⟨m, bl, r, y, err, 0, 0, 0, J.method, J.funcs, none, 0, false⟩) (s := ⟨some a, b⟩) rfl
    (slice_ne h1 (by rw [excess_length (c := ⟨m, bl, r, y, err, 0, 0, 0, J.method, J.funcs, none, 0, false⟩) hy he]; exact h2))
  rw [hd]
  exact ⟨d, rfl⟩

theorem newCluster_whole (m : List (Part K)) (bl : Option (Part K)) {r y err : List K} (hy : y.length = r.length)
    (he : err.length = r.length) {s : Option Slice} (hs : s = none ∨ s = some ⟨none, r.length⟩) :
    (r ≠ [] → ∃ d, newCluster W J m bl r y err s = .ok d) ∧
    (r = [] → newCluster W J m bl r y err s = .error .value) := by
  have hs' : s.getD ⟨none, r.length⟩ = ⟨none, r.length⟩ := by rcases hs with rfl | rfl <;> rfl
  unfold newCluster
  simp only [hs']
  have hl := excess_length (W := W) (c := ⟨m, bl, r, y, err, 0, 0, 0, J.method, J.funcs, none, 0, false⟩) hy he
  simp only at hl
  constructor
  · intro h
    have h0 : 0 < r.length := List.length_pos_iff.2 h
    obtain ⟨d, hd⟩ := changeSlice_first (ex := excess W ⟨m, bl, r, y, err, 0, 0, 0, J.method, J.funcs, none, 0, false⟩)
      (c := ⟨m, bl, r, y, err, 0, 0, 0, J.method, J.funcs, none, 0, false⟩) (s := ⟨none, r.length⟩) rfl
      (slice_ne h0 (by rw [hl]; exact h0))
    rw [hd]
    exact ⟨d, rfl⟩
  · intro h
    subst h
    have h0 : excess W ⟨m, bl, [], y, err, 0, 0, 0, J.method, J.funcs, none, 0, false⟩ = [] :=
      List.eq_nil_of_length_eq_zero hl
    rw [h0]
    rfl

theorem starts_whole {c : Cluster K} {r : List K} {v : K} (hr : c.r = r) (hs : c.slice = some ⟨none, r.length⟩)
    (hv : r.head? = some v) : Starts c v := by
  refine ⟨_, hs, ?_⟩
  rw [hr]
  unfold Slice.get getSlice bounds
  simp [hv]

theorem starts_part {c : Cluster K} {r : List K} {a b : ℕ} {v : K} (hr : c.r = r) (hs : c.slice = some ⟨some a, b⟩)
    (h1 : a < b) (hv : r[a]? = some v) : Starts c v := by
  refine ⟨_, hs, ?_⟩
  have ha := getElem?_lt hv
  rw [hr]
  unfold Slice.get getSlice bounds
  simp only [Option.getD_some]
  rw [Nat.min_eq_left (by omega), List.head?_take, if_neg (by omega), List.head?_drop, hv]

theorem copyOf_tot {c : Cluster K} {a b : ℕ} (hy : c.y.length = c.r.length) (he : c.err.length = c.r.length)
    (hs : c.slice = some ⟨some a, b⟩) (h1 : a < b) (h2 : a < c.r.length) : ∃ d, copyOf W c = .ok d := by
  unfold copyOf copy
  rw [hs]
  simp only
  obtain ⟨d, hd⟩ := changeSlice_first (ex := excess W c) (c := { c with slice := none, lastFit := 0, neverFit := false })
    (s := ⟨some a, b⟩) rfl (slice_ne h1 (by rw [excess_length hy he]; exact h2))
  rw [hd]
  exact ⟨d, rfl⟩

theorem reslice_tot {c : Cluster K} {a b : ℕ} (hy : c.y.length = c.r.length) (he : c.err.length = c.r.length)
    (hs : c.slice = some ⟨some a, b⟩) (h1 : a < b) (h2 : b ≤ c.r.length) {s : ℕ × ℕ}
    (hb : s.2 ≤ c.r.length) :
    ∃ d, reslice W c s = .ok d := by
  have hl := excess_length (W := W) hy he
  unfold reslice changeSlice updateNever
  rw [hs]
  simp only
  have hleft : ∃ n, (if c.neverFit = true then
      if s.1 < a then maxNeg (getSlice (excess W c) (some (s.1, a))) else .ok c.neverFit
      else .ok c.neverFit : Res Bool) = .ok n := by
    split
    · split
      · rename_i h; exact maxNeg_total (slice_ne h (by omega))
      · exact ⟨_, rfl⟩
    · exact ⟨_, rfl⟩
  obtain ⟨n, hn⟩ := hleft
  rw [hn]
  simp only
  have hright : ∃ k, (if n = true ∧ b < s.2 then maxNeg (getSlice (excess W c) (some (b, s.2))) else .ok n : Res Bool) =
      .ok k := by
    split
    · rename_i h; exact maxNeg_total (slice_ne h.2 (by omega))
    · exact ⟨_, rfl⟩
  obtain ⟨k, hk⟩ := hright
  rw [hk]
  exact ⟨_, rfl⟩

/-! ### A deeper search -/

theorem trials_method (E : Env K) (hT : Tame E) (best : List (Part K)) : ∀ (ss : List (Part K)) (c : Cluster K),
    (trials E c best ss).2.method = c.method := by
  have h1 : ∀ (c : Cluster K) (s : Part K), (trial E c best s).2.method = c.method := by
    intro c s
    have := (fit_data hT {} { c with model := best ++ [s] }).1.method
    unfold trial
    generalize ModelCluster.fit E {} { c with model := best ++ [s] } = F at this
    obtain ⟨a, c', l⟩ := F
    cases a <;> exact this
  intro ss
  induction ss with
  | nil => intro c; rfl
  | cons s ss ih =>
    intro c
    have h := h1 c s
    unfold trials
    generalize trial E c best s = T at h
    obtain ⟨a, c'⟩ := T
    cases a with
    | error e => exact h
    | ok t =>
      have h2 := ih c'
      simp only
      generalize trials E c' best ss = T at h2
      obtain ⟨b, c''⟩ := T
      cases b <;> exact h2.trans h

theorem augmentLoop_method (E : Env K) (hT : Tame E) (pick : List (Evaluator.Ev K) → ℕ) : ∀ (n : ℕ) (c : Cluster K)
    (best : List (Part K)) (bq : Evaluator.Ev K) (source : List (Part K)),
    (augmentLoop E pick n c best bq source).2.method = c.method := by
  intro n
  induction n with
  | zero => intro c best bq source; rfl
  | succ n ih =>
    intro c best bq source
    unfold augmentLoop
    split
    · rfl
    have h := trials_method E hT best source c
    generalize trials E c best source = T at h
    obtain ⟨a, c'⟩ := T
    cases a with
    | error e => exact h
    | ok ts =>
      simp only
      split
      · exact h
      · split
        · exact h
        · exact (ih _ _ _ _).trans h
        · exact h

theorem augment_method (E : Env K) (hT : Tame E) (pick : List (Evaluator.Ev K) → ℕ) (c : Cluster K) (source : List (Part K)) :
    (augment E pick c source).2.method = c.method := by
  have h := augmentLoop_method E hT pick source.length c c.model (E.quality c.model c.baseline) source
  unfold augment
  generalize augmentLoop E pick source.length c c.model (E.quality c.model c.baseline) source = L at h
  obtain ⟨a, c'⟩ := L
  cases a with
  | error e => exact h
  | ok best =>
    simp only
    split
    · exact h
    · rename_i m _
      have h2 := (fit_data hT {} { c' with model := m }).1.method
      generalize ModelCluster.fit E {} { c' with model := m } = F at h2
      obtain ⟨b, c'', l⟩ := F
      cases b <;> exact h2.trans h

/-- A recursive search ends; what it finds lies right of the first point, unless `V`. -/
def RecEnds (V : Prop) (rec : Deeper K) : Prop :=
  ∀ f, rec = some f → ∀ r y e v, Data r y e → r.head? = some v →
    Ends V (f r y e) (fun c => Right V v c.model)

theorem deepen_tot (hS : Sane W) (hC : Calm W) (hV : V ∨ Confined W) (hQ : Supplies W J Q)
    (hrem : ∀ k, Q k → k.2.2.1 = true) {rec : Deeper K} (hF : Finds rec Q) (hR : RecEnds V rec)
    {c : Cluster K} {must : Bool} {v : K} (h : Of J Q r y err bl c) (hd : Data r y err) (hv : r.head? = some v)
    (hs : Starts c v) (hr : Right V v c.model) :
    Ends V (deepen W J rec c must) (fun d => Right V v d.model ∧ d.method = c.method) := by
  have hd' : Data c.r c.y c.err := by rw [h.r, h.y, h.err]; exact hd
  have hres := residual_data (W := W) hd'
  have hne : c.r ≠ [] := by rw [h.r]; intro h0; rw [h0] at hv; simp at hv
  obtain ⟨chk, hchk⟩ := (newCluster_whole (W := W) (J := J) [] none hres.leny hres.lene (s := none) (Or.inl rfl)).1 hne
  unfold deepen
  rw [hchk]
  simp only
  split
  · split
    · exact Or.inl ⟨c, rfl, hr, rfl⟩
    · rename_i f
      have hrec := hR f rfl _ _ _ v hres (by rw [h.r]; exact hv)
      have hfind := hF f rfl
      rcases hrec with ⟨found, e1, e2⟩ | ⟨hV', e1⟩
      · rw [e1]
        simp only
        have hkf := hfind _ _ _ _ hres e1
        obtain ⟨meth, hq⟩ := hC.quiet c
        have ht := augment_total (hS.tame c) hq hC.pick (fun p hp => hrem _ (hQ c p h.funcs hp)) c found.model
          (fun p hp => hrem _ (h.keys p hp)) (fun p hp => hrem _ (hkf p hp))
        have hmeth := augment_method (W.env c) (hS.tame c) W.pick c found.model
        have ha : Right V v (augment (W.env c) W.pick c found.model).2.model := by
          rcases hV with hV | hV
          · exact Or.inl hV
          rcases e2 with h | e2
          · exact Or.inl h
          rcases hr with h | hr
          · exact Or.inl h
          exact Or.inr (augment_all (hS.tame c) (hV.fit c v hs) (hV.est c v hs) W.pick c found.model hr e2)
        unfold augmented
        generalize augment (W.env c) W.pick c found.model = A at ht ha hmeth
        obtain ⟨u, d⟩ := A
        simp only at ht ha
        subst ht
        exact Or.inl ⟨d, rfl, ha, hmeth⟩
      · rw [e1]
        exact Or.inr ⟨hV', rfl⟩
  · exact Or.inl ⟨c, rfl, hr, rfl⟩

end Verif.Parts.Extract
