import Verif.ModelCluster.ValueModel
import Verif.ModelCluster.Fit
import Mathlib.Algebra.BigOperators.Group.List.Basic
import Mathlib.Tactic.Ring
import Mathlib.Data.List.GetD

/-!
# Property C94: value, residual and quality of a cluster

## Specification
-/

set_option linter.unusedSectionVars false

namespace Verif.Parts.ModelCluster

open Verif.Py Verif.PeakList

variable {K : Type} [Field K] [LinearOrder K]

/-- The baseline (if any) and the peaks. -/
def parts (c : Cluster K) : List (Part K) := c.baseline.toList ++ c.model

/-- The function of every part returns one number for each point of `l`. -/
def Measures (ps : List (Part K)) (l : List K) : Prop :=
  ∀ p ∈ ps, (p.owner.rawValue p.pars l).length = l.length

/-- The sum of the parts, evaluated on the points `l`, at the `i`-th point. -/
def sumAt (ps : List (Part K)) (l : List K) (i : ℕ) : K :=
  (ps.map (fun p => (p.owner.rawValue p.pars l).getD i 0)).sum

/-- The function of every part is a function of the point alone. -/
def PointwiseBy (val : Part K → K → K) (ps : List (Part K)) : Prop :=
  ∀ p ∈ ps, ∀ l, p.owner.rawValue p.pars l = l.map (val p)

/-- The sum of the parts at `x`. -/
def curve (val : Part K → K → K) (ps : List (Part K)) (x : K) : K := (ps.map (fun p => val p x)).sum

/-- The sum of the squared deviations in units of the uncertainties. -/
def deviation (f : K → K) (r y e : List K) : K :=
  (List.zipWith (fun (p : K × K) d => ((f p.1 - p.2) / d) ^ 2) (r.zip y) e).sum

/-- The number of parameters of the peaks that count. -/
def counted (ps : List (Part K)) (countFixed : Bool) : ℕ :=
  (ps.map (fun p => if countFixed then p.owner.npars else p.free.countP (· = true))).sum

/-- The data arrays have the same length. -/
def Even (c : Cluster K) : Prop := c.y.length = c.r.length ∧ c.err.length = c.r.length

/-! ## Arrays -/

theorem getSlice_setSlice {α : Type} {l vals out : List α} {rng : Option (ℕ × ℕ)}
    (h : setSlice l rng vals = .ok out) : getSlice out rng = vals ∧ out.length = l.length := by
  unfold setSlice at h
  have hb := bounds_le l.length rng
  simp only at h
  split at h
  · rename_i hv
    simp only [Except.ok.injEq] at h
    have hl : out.length = l.length := by
      rw [← h]; simp only [List.length_append, List.length_take, List.length_drop]; omega
    refine ⟨?_, hl⟩
    simp only [getSlice, hl]
    rw [← h, List.append_assoc, List.drop_append_of_le_length (by rw [List.length_take]; omega)]
    rw [List.drop_eq_nil_of_le (by rw [List.length_take]; omega), List.nil_append, ← hv,
      List.take_left' rfl]
  · simp at h

theorem getSlice_none {α : Type} (l : List α) : getSlice l none = l := by
  simp [getSlice, bounds]

theorem length_getSlice_eq {α β : Type} {a : List α} {b : List β} (rng : Option (ℕ × ℕ))
    (h : a.length = b.length) : (getSlice a rng).length = (getSlice b rng).length := by
  rw [length_getSlice, length_getSlice, h]

theorem getSlice_zipWith {α β γ : Type} (f : α → β → γ) (a : List α) (b : List β) (rng : Option (ℕ × ℕ))
    (h : a.length = b.length) :
    getSlice (List.zipWith f a b) rng = List.zipWith f (getSlice a rng) (getSlice b rng) := by
  simp only [getSlice, List.length_zipWith, h, Nat.min_self]
  rw [List.drop_zipWith, List.take_zipWith]

theorem getSlice_map {α β : Type} (f : α → β) (a : List α) (rng : Option (ℕ × ℕ)) :
    getSlice (a.map f) rng = (getSlice a rng).map f := by
  simp only [getSlice, List.length_map]
  rw [List.map_take, List.map_drop]

theorem getD_zipWith_add {a b : List K} (i : ℕ) (h : a.length = b.length) :
    (List.zipWith (· + ·) a b).getD i 0 = a.getD i 0 + b.getD i 0 := by
  by_cases hi : i < a.length
  · rw [List.getD_eq_getElem _ _ (by simp; omega), List.getD_eq_getElem _ _ hi,
      List.getD_eq_getElem _ _ (by omega), List.getElem_zipWith]
  · rw [List.getD_eq_default _ _ (by simp; omega), List.getD_eq_default _ _ (by omega),
      List.getD_eq_default _ _ (by omega), add_zero]

theorem list_eq_range {v : List K} {n : ℕ} {f : ℕ → K} (h : v.length = n)
    (hf : ∀ i, i < n → v.getD i 0 = f i) : v = (List.range n).map f := by
  apply List.ext_getElem (by simp [h])
  intro i h1 h2
  have := hf i (by omega)
  rw [List.getD_eq_getElem _ _ h1] at this
  simp [this]

/-! ## Values -/

theorem part_slice (p : Part K) (r : List K) (rng : Option (ℕ × ℕ))
    (h : (p.owner.rawValue p.pars (getSlice r rng)).length = (getSlice r rng).length) :
    ∃ out, p.value r rng = .ok out ∧ out.length = r.length ∧
      getSlice out rng = p.owner.rawValue p.pars (getSlice r rng) := by
  obtain ⟨out, h1, -⟩ := setSlice_ok (r.map (· * 0)) rng (p.owner.rawValue p.pars (getSlice r rng))
    (by rw [h, getSlice_map, List.length_map])
  obtain ⟨h2, h3⟩ := getSlice_setSlice h1
  exact ⟨out, h1, by simpa using h3, h2⟩

theorem loop_slice (ps : List (Part K)) (r : List K) (rng : Option (ℕ × ℕ))
    (h : Measures ps (getSlice r rng)) (acc : List K) (hacc : acc.length = r.length) :
    ∃ tot, valueLoop ps r rng acc = .ok tot ∧ tot.length = r.length ∧
      ∀ i, (getSlice tot rng).getD i 0 = (getSlice acc rng).getD i 0 + sumAt ps (getSlice r rng) i := by
  induction ps generalizing acc with
  | nil => exact ⟨acc, rfl, hacc, by simp [sumAt]⟩
  | cons p ps ih =>
    obtain ⟨out, h1, h2, h3⟩ := part_slice p r rng (h p (by simp))
    obtain ⟨tot, e1, e2, e3⟩ := ih (fun q hq => h q (by simp [hq])) (List.zipWith (· + ·) acc out)
      (by simp [hacc, h2])
    refine ⟨tot, by rw [valueLoop, h1]; exact e1, e2, ?_⟩
    intro i
    rw [e3 i, getSlice_zipWith _ _ _ _ (by omega), getD_zipWith_add i (length_getSlice_eq rng (by omega)), h3]
    simp only [sumAt, List.map_cons, List.sum_cons]
    ring

theorem zeros_getD (l : List K) (i : ℕ) : (l.map (· * 0)).getD i 0 = 0 := by
  by_cases hi : i < l.length
  · rw [List.getD_eq_getElem _ _ (by simpa using hi)]; simp
  · rw [List.getD_eq_default _ _ (by simpa using hi)]

theorem parts_slice (ps : List (Part K)) (r : List K) (rng : Option (ℕ × ℕ))
    (h : Measures ps (getSlice r rng)) :
    ∃ tot, Parts.value ps r rng = .ok tot ∧ tot.length = r.length ∧
      ∀ i, (getSlice tot rng).getD i 0 = sumAt ps (getSlice r rng) i := by
  obtain ⟨tot, e1, e2, e3⟩ := loop_slice ps r rng h (r.map (· * 0)) (by simp)
  refine ⟨tot, e1, e2, fun i => ?_⟩
  rw [e3 i, getSlice_map, zeros_getD, zero_add]

theorem sumAt_append (a b : List (Part K)) (l : List K) (i : ℕ) :
    sumAt (a ++ b) l i = sumAt a l i + sumAt b l i := by simp [sumAt]

/-- `valuebl`. -/
theorem base_none {c : Cluster K} {s : Slice} (hs : c.slice = some s)
    (h : Measures c.baseline.toList (s.get c.r)) :
    ∃ v, baseValue c none = .ok v ∧ v.length = (s.get c.r).length ∧
      ∀ i, v.getD i 0 = sumAt c.baseline.toList (s.get c.r) i := by
  unfold baseValue sliceOf
  rw [hs]
  cases hb : c.baseline with
  | none =>
    refine ⟨_, rfl, by simp, fun i => ?_⟩
    by_cases hi : i < (s.get c.r).length
    · rw [List.getD_eq_getElem _ _ (by simpa using hi)]; simp [sumAt]
    · rw [List.getD_eq_default _ _ (by simpa using hi)]; simp [sumAt]
  | some b =>
    obtain ⟨out, h1, h2, h3⟩ := part_slice b c.r s.rng (h b (by simp [hb]))
    refine ⟨s.get out, ?_, ?_, ?_⟩
    · show (b.value c.r s.rng >>= fun v => Except.ok (s.get v)) = _
      rw [h1]; rfl
    · exact length_getSlice_eq _ h2
    · intro i
      show (getSlice out s.rng).getD i 0 = _
      rw [h3]; simp [sumAt]; rfl

theorem base_some {c : Cluster K} (r : List K) (h : Measures c.baseline.toList r) :
    ∃ v, baseValue c (some r) = .ok v ∧ v.length = r.length ∧
      ∀ i, v.getD i 0 = sumAt c.baseline.toList r i := by
  unfold baseValue
  cases hb : c.baseline with
  | none => exact ⟨_, rfl, by simp, fun i => by rw [zeros_getD]; simp [sumAt]⟩
  | some b =>
    obtain ⟨out, h1, h2, h3⟩ := part_slice b r none (by rw [getSlice_none]; exact h b (by simp [hb]))
    refine ⟨out, h1, h2, fun i => ?_⟩
    rw [getSlice_none, getSlice_none] at h3
    rw [h3]; simp [sumAt]

/-- **C94.** The value of a cluster — over the cluster, or over any points asked for — is the sum of the
baseline and of the peaks there.  Over the cluster, the functions are evaluated on the points of the cluster
only: `value()` is `value(r_cluster)`. -/
theorem c94_value (c : Cluster K) :
    (∀ s, c.slice = some s → Measures (parts c) (s.get c.r) →
      clusterValue c none = .ok ((List.range (s.get c.r).length).map (sumAt (parts c) (s.get c.r))) ∧
      clusterValue c none = clusterValue c (some (s.get c.r))) ∧
    (∀ r, Measures (parts c) r →
      clusterValue c (some r) = .ok ((List.range r.length).map (sumAt (parts c) r))) := by
  have hsome : ∀ r, Measures (parts c) r →
      clusterValue c (some r) = .ok ((List.range r.length).map (sumAt (parts c) r)) := by
    intro r h
    obtain ⟨b, b1, b2, b3⟩ := base_some (c := c) r (fun p hp => h p (List.mem_append_left _ hp))
    obtain ⟨m, m1, m2, m3⟩ := parts_slice c.model r none
      (by rw [getSlice_none]; exact fun p hp => h p (List.mem_append_right _ hp))
    unfold clusterValue
    split
    · rename_i h0
      rw [b1, list_eq_range b2 (f := sumAt (parts c) r)]
      intro i _
      rw [b3, parts, List.eq_nil_of_length_eq_zero h0, List.append_nil]
    · rw [b1]
      show (Parts.value c.model r none >>= fun m => addArr b m) = _
      rw [m1]
      show addArr b m = _
      unfold addArr
      rw [if_pos (by omega), list_eq_range (v := List.zipWith (· + ·) b m) (f := sumAt (parts c) r) (n := r.length)]
      · simp; omega
      · intro i _
        have := m3 i
        rw [getSlice_none, getSlice_none] at this
        rw [getD_zipWith_add i (by omega), b3, this, parts, sumAt_append]
  refine ⟨?_, hsome⟩
  intro s hs h
  have key : clusterValue c none = .ok ((List.range (s.get c.r).length).map (sumAt (parts c) (s.get c.r))) := by
    obtain ⟨b, b1, b2, b3⟩ := base_none hs (fun p hp => h p (List.mem_append_left _ hp))
    obtain ⟨m, m1, m2, m3⟩ := parts_slice c.model c.r s.rng
      (fun p hp => h p (List.mem_append_right _ hp))
    unfold clusterValue
    split
    · rename_i h0
      rw [b1, list_eq_range b2 (f := sumAt (parts c) (s.get c.r))]
      intro i _
      rw [b3, parts, List.eq_nil_of_length_eq_zero h0, List.append_nil]
    · rw [b1]
      show (peaksValue c none >>= fun m => addArr b m) = _
      have hp : peaksValue c none = .ok (s.get m) := by
        unfold peaksValue sliceOf
        rw [hs]
        show (Parts.value c.model c.r s.rng >>= fun v => Except.ok (s.get v)) = _
        rw [m1]; rfl
      rw [hp]
      show addArr b (s.get m) = _
      have hl : (s.get m).length = (s.get c.r).length := length_getSlice_eq _ m2
      unfold addArr
      rw [if_pos (by omega), list_eq_range (v := List.zipWith (· + ·) b (s.get m))
        (f := sumAt (parts c) (s.get c.r)) (n := (s.get c.r).length)]
      · simp; omega
      · intro i _
        rw [getD_zipWith_add i (by omega), b3, parts, sumAt_append]
        congr 1
        exact m3 i
  exact ⟨key, by rw [key, hsome _ h]⟩

theorem measures_of_pointwise {val : Part K → K → K} {ps : List (Part K)} (h : PointwiseBy val ps)
    (l : List K) : Measures ps l := fun p hp => by rw [h p hp, List.length_map]

theorem sumAt_pointwise {val : Part K → K → K} {ps : List (Part K)} (h : PointwiseBy val ps) (l : List K) :
    (List.range l.length).map (sumAt ps l) = l.map (curve val ps) := by
  apply List.ext_getElem (by simp)
  intro i h1 h2
  simp only [List.getElem_map, List.getElem_range, sumAt, curve]
  congr 1
  apply List.map_congr_left
  intro p hp
  have hi : i < l.length := by simpa using h2
  rw [h p hp, List.getD_eq_getElem _ _ (by simpa using hi), List.getElem_map]

/-- **C94.** For functions of the point alone (Gaussians, polynomials, ...) the value at a point is the
baseline plus the sum of the peaks at that point, wherever the other points are. -/
theorem c94_pointwise {val : Part K → K → K} (c : Cluster K) (h : PointwiseBy val (parts c)) :
    (∀ s, c.slice = some s → clusterValue c none = .ok ((s.get c.r).map (curve val (parts c)))) ∧
    (∀ r, clusterValue c (some r) = .ok (r.map (curve val (parts c)))) := by
  obtain ⟨h1, h2⟩ := c94_value c
  refine ⟨fun s hs => ?_, fun r => ?_⟩
  · rw [(h1 s hs (measures_of_pointwise h _)).1, sumAt_pointwise h]
  · rw [h2 r (measures_of_pointwise h _), sumAt_pointwise h]

/-- **C94.** The residual is the data minus the value, point by point: residual and value add up to the
data. -/
theorem c94_residual {val : Part K → K → K} (c : Cluster K) (h : PointwiseBy val (parts c)) (he : Even c)
    {s : Slice} (hs : c.slice = some s) :
    ∃ res v, clusterResidual c = .ok res ∧ clusterValue c none = .ok v ∧
      plottableResidual c = .ok [s.get c.r, res] ∧
      res = List.zipWith (fun x y => y - curve val (parts c) x) (s.get c.r) (s.get c.y) ∧
      List.zipWith (· + ·) res v = s.get c.y := by
  have hv := (c94_pointwise c h).1 s hs
  have hl : (s.get c.y).length = (s.get c.r).length := length_getSlice_eq _ he.1
  have hres : clusterResidual c =
      .ok (List.zipWith (fun x y => y - curve val (parts c) x) (s.get c.r) (s.get c.y)) := by
    unfold clusterResidual sliceOf
    rw [hs]
    show (clusterValue c none >>= fun v => subArr (s.get c.y) v) = _
    rw [hv]
    show subArr _ _ = _
    unfold subArr
    rw [if_pos (by simpa using hl), List.zipWith_map_right, List.zipWith_comm]
  refine ⟨_, _, hres, hv, ?_, rfl, ?_⟩
  · unfold plottableResidual sliceOf
    rw [hs]
    show (clusterResidual c >>= fun v => Except.ok [s.get c.r, v]) = _
    rw [hres]; rfl
  · generalize s.get c.r = r at *
    generalize s.get c.y = y at *
    apply List.ext_getElem (by simp; omega)
    intro i h1 h2
    simp

/-! ## Quality -/

theorem chiSquared_deviation (f : K → K) : ∀ (r y e : List K),
    Evaluator.chiSquared (r.map f) y e = deviation f r y e
  | [], _, _ => by simp [Evaluator.chiSquared, deviation]
  | _ :: _, [], _ => by simp [Evaluator.chiSquared, deviation]
  | _ :: _, _ :: _, [] => by simp [Evaluator.chiSquared, deviation]
  | x :: r, a :: y, d :: e => by
    have := chiSquared_deviation f r y e
    unfold deviation at this
    simp only [List.map_cons, Evaluator.chiSquared, deviation, List.zip_cons_cons, List.zipWith_cons_cons,
      List.sum_cons, this, div_pow]

theorem npars_counted (ps : List (Part K)) (b : Bool) : npars ps b = counted ps b := by
  unfold npars counted
  congr 1

/-- The penalty of `k` parameters on `n` points. -/
def penalty : Evaluator.Kind → ℕ → ℕ → K
  | .aic, k, _ => 2 * k
  | .aicc, k, n => if k + 2 ≤ n then 2 * k + 2 * k * (k + 1) / ((n : K) - k - 1) else 2 * k + 2 * k * (k + 1)

/-- **C94.** The quality of a cluster is the sum of the squared deviations of its value from its data, in
units of its uncertainties, plus the penalty for the parameters of its peaks: the free ones, or all of them.
The parameters of the baseline, free or not, are not counted. -/
theorem c94_quality {val : Part K → K → K} (kind : Evaluator.Kind) (c : Cluster K)
    (h : PointwiseBy val (parts c)) (he : Even c) {s : Slice} (hs : c.slice = some s) (cf : Bool) :
    ∃ a, quality kind c cf 0 = .ok a ∧ a.higherIsBetter = false ∧
      a.method = (match kind with | .aic => "AIC" | .aicc => "AICc") ∧
      a.stat = some (deviation (curve val (parts c)) (s.get c.r) (s.get c.y) (s.get c.err) +
        penalty kind (counted c.model cf) (s.get c.r).length) := by
  have hv := (c94_pointwise c h).1 s hs
  have hl : (s.get c.y).length = (s.get c.r).length := length_getSlice_eq _ he.1
  have hk : (((if cf then (fitOf c s ((s.get c.r).map (curve val (parts c)))).nall
      else (fitOf c s ((s.get c.r).map (curve val (parts c)))).nfree : ℕ) : ℤ) + 0) = (counted c.model cf : ℤ) := by
    cases cf <;> simp [fitOf, npars_counted]
  have hq : quality kind c cf 0 = (match Evaluator.evaluate kind (Evaluator.new kind)
      (fitOf c s ((s.get c.r).map (curve val (parts c)))) cf 0 with
      | .error e => .error (evalErr e) | .ok a => .ok a) := by
    unfold quality sliceOf
    rw [hs]
    show (clusterValue c none >>= _) = _
    rw [hv]; rfl
  rw [hq]
  unfold Evaluator.evaluate
  simp only [hk]
  rw [if_neg (by omega)]
  refine ⟨_, rfl, by cases kind <;> rfl, by cases kind <;> rfl, ?_⟩
  simp only [Option.some.injEq]
  have hc : Evaluator.chisqOf (Evaluator.new kind) (fitOf c s ((s.get c.r).map (curve val (parts c)))) =
      deviation (curve val (parts c)) (s.get c.r) (s.get c.y) (s.get c.err) := by
    cases kind <;> exact chiSquared_deviation _ _ _ _
  rw [hc]
  congr 1
  have hsz : (fitOf c s ((s.get c.r).map (curve val (parts c)))).size = (s.get c.r).length := hl
  rw [hsz]
  cases kind with
  | aic => simp [Evaluator.parpenalty, penalty]
  | aicc =>
    simp only [Evaluator.parpenalty, penalty]
    have hmin : Evaluator.minpoints .aicc (counted c.model cf : ℤ) = (counted c.model cf : ℤ) + 2 := rfl
    by_cases hn : counted c.model cf + 2 ≤ (s.get c.r).length
    · have hn' : ¬ (((s.get c.r).length : ℤ) < Evaluator.minpoints .aicc (counted c.model cf : ℤ)) := by omega
      rw [if_neg hn', if_pos hn]
      push_cast; ring
    · have hn' : ((s.get c.r).length : ℤ) < Evaluator.minpoints .aicc (counted c.model cf : ℤ) := by omega
      rw [if_pos hn', if_neg hn, hmin]
      push_cast
      have : ((counted c.model cf : K) + 2 - counted c.model cf - 1) = 1 := by ring
      rw [this]; ring

/-- **C94.** With a shift that makes the number of parameters negative there is no quality:
SrMiseModelEvaluatorError. -/
theorem c94_quality_negative {val : Part K → K → K} (kind : Evaluator.Kind) (c : Cluster K)
    (h : PointwiseBy val (parts c)) {s : Slice} (hs : c.slice = some s) (cf : Bool) (kshift : ℤ)
    (hk : (counted c.model cf : ℤ) + kshift < 0) : quality kind c cf kshift = .error (.other 21) := by
  have hv := (c94_pointwise c h).1 s hs
  unfold quality sliceOf
  rw [hs]
  show (clusterValue c none >>= _) = _
  rw [hv]
  have hk' : (((if cf then (fitOf c s ((s.get c.r).map (curve val (parts c)))).nall
      else (fitOf c s ((s.get c.r).map (curve val (parts c)))).nfree : ℕ) : ℤ) + kshift) < 0 := by
    cases cf <;> simpa [fitOf, npars_counted] using hk
  show (match Evaluator.evaluate kind (Evaluator.new kind)
      (fitOf c s ((s.get c.r).map (curve val (parts c)))) cf kshift with
      | .error e => (Except.error (evalErr e) : Res (Evaluator.Ev K)) | .ok a => Except.ok a) = _
  unfold Evaluator.evaluate
  simp only
  rw [if_pos hk']
  rfl

theorem curve_perm (val : Part K → K → K) {a b : List (Part K)} (h : a.Perm b) : curve val a = curve val b := by
  funext x
  exact (h.map _).sum_eq

theorem counted_perm {a b : List (Part K)} (h : a.Perm b) (cf : Bool) : counted a cf = counted b cf :=
  (h.map _).sum_eq

theorem pointwise_perm {val : Part K → K → K} {a b : List (Part K)} (hp : a.Perm b) (h : PointwiseBy val a) :
    PointwiseBy val b := fun p hm => h p (hp.mem_iff.2 hm)

/-- **C94.** The order of the peaks does not matter for the value nor for the quality. -/
theorem c94_order {val : Part K → K → K} (c : Cluster K) (h : PointwiseBy val (parts c)) (he : Even c)
    {s : Slice} (hs : c.slice = some s) (m : List (Part K)) (hm : c.model.Perm m) (kind : Evaluator.Kind)
    (cf : Bool) :
    clusterValue { c with model := m } none = clusterValue c none ∧
    (∀ r, clusterValue { c with model := m } (some r) = clusterValue c (some r)) ∧
    (quality kind { c with model := m } cf 0).map Evaluator.Ev.stat =
      (quality kind c cf 0).map Evaluator.Ev.stat := by
  have hp : (parts c).Perm (parts { c with model := m }) := hm.append_left _
  have h' := pointwise_perm hp h
  have e := curve_perm val hp
  obtain ⟨a1, a2⟩ := c94_pointwise c h
  obtain ⟨b1, b2⟩ := c94_pointwise { c with model := m } h'
  obtain ⟨q, q1, -, -, q2⟩ := c94_quality kind c h he hs cf
  obtain ⟨q', q1', -, -, q2'⟩ := c94_quality kind { c with model := m } h' he hs cf
  refine ⟨?_, fun r => ?_, ?_⟩
  · rw [a1 s hs, b1 s hs, ← e]
  · rw [a2 r, b2 r, ← e]
  · rw [q1, q1']
    show Except.ok _ = Except.ok _
    rw [q2, q2', ← e, ← counted_perm hm cf]

/-! ## External peaks -/

theorem curve_append (val : Part K → K → K) (a b : List (Part K)) (x : K) :
    curve val (a ++ b) x = curve val a x + curve val b x := by simp [curve]

theorem counted_append (a b : List (Part K)) (cf : Bool) :
    counted (a ++ b) cf = counted a cf + counted b cf := by simp [counted]

theorem parts_value_pointwise {val : Part K → K → K} {ps : List (Part K)} (h : PointwiseBy val ps)
    (r : List K) : Parts.value ps r none = .ok (r.map (curve val ps)) := by
  obtain ⟨tot, h1, h2, h3⟩ := parts_slice ps r none (measures_of_pointwise h _)
  rw [getSlice_none, getSlice_none] at h3
  rw [h1, list_eq_range h2 (f := sumAt ps r) (fun i _ => h3 i), sumAt_pointwise h]

theorem zip_sum_congr (f g : K → K) : ∀ (r y e : List K),
    deviation (fun x => f x + g x) r (List.zipWith (fun x b => b + g x) r y) e = deviation f r y e
  | [], _, _ => by simp [deviation]
  | _ :: _, [], _ => by simp [deviation]
  | _ :: _, _ :: _, [] => by simp [deviation]
  | x :: r, a :: y, d :: e => by
    have := zip_sum_congr f g r y e
    unfold deviation at this
    simp only [deviation, List.zipWith_cons_cons, List.zip_cons_cons, List.sum_cons, this]
    congr 3
    ring

/-- **C94.** Adding external peaks always succeeds, adds their value to the data and to the value of the
cluster, and so leaves the residual as it was: only the penalty for the added parameters is new.  The peaks
are then in order of position, and the rest of the cluster is untouched. -/
theorem c94_external [IsStrictOrderedRing K] {val : Part K → K → K} (as : List K → List ℕ) (has : SortsKeys as)
    (c : Cluster K) (peaks : List (Part K)) (h : PointwiseBy val (parts c)) (hp : PointwiseBy val peaks)
    (he : Even c) {s : Slice} (hs : c.slice = some s) (cf : Bool) :
    ∃ c', addexternalpeaks as c peaks = (.ok (), c') ∧
      c'.model.Perm (c.model ++ peaks) ∧ c'.model.Pairwise (fun p q => pos p ≤ pos q) ∧
      c'.y = List.zipWith (fun x y => y + curve val peaks x) c.r c.y ∧
      { c' with model := c.model, y := c.y } = c ∧
      clusterResidual c' = clusterResidual c ∧
      (∀ r, clusterValue c' (some r) = .ok (r.map (fun x => curve val (parts c) x + curve val peaks x))) ∧
      (∃ a a' d, quality .aic c cf 0 = .ok a ∧ quality .aic c' cf 0 = .ok a' ∧ a.stat = some d ∧
        a'.stat = some (d + 2 * (counted peaks cf : K))) := by
  obtain ⟨hperm, hsort⟩ := c37_sort has false pos (peaks ++ c.model)
  have hrep : replacepeaks as c.model peaks 0 0 = (.ok (), sort as false pos (peaks ++ c.model)) := by
    unfold replacepeaks
    rw [if_neg (by simp [getSlice, bounds])]
    simp [bounds]
  have hadd : addArr c.y (c.r.map (curve val peaks)) =
      .ok (List.zipWith (fun x y => y + curve val peaks x) c.r c.y) := by
    unfold addArr
    rw [if_pos (by simpa using he.1), List.zipWith_map_right, List.zipWith_comm]
  generalize hm : sort as false pos (peaks ++ c.model) = m at *
  have hmp : m.Perm (c.model ++ peaks) := hperm.trans List.perm_append_comm
  have hrun : addexternalpeaks as c peaks =
      (.ok (), { c with model := m, y := List.zipWith (fun x y => y + curve val peaks x) c.r c.y }) := by
    unfold addexternalpeaks
    rw [hrep]
    simp only
    rw [parts_value_pointwise hp]
    simp only
    rw [hadd]
  generalize hc' : ({ c with model := m, y := List.zipWith (fun x y => y + curve val peaks x) c.r c.y } :
    Cluster K) = c' at *
  have hparts : (parts c ++ peaks).Perm (parts c') := by
    rw [← hc']
    unfold parts
    rw [List.append_assoc]
    exact hmp.symm.append_left _
  have h' : PointwiseBy val (parts c') := by
    refine pointwise_perm hparts ?_
    intro p hpm
    rcases List.mem_append.1 hpm with hpm | hpm
    · exact h p hpm
    · exact hp p hpm
  have hcurve : curve val (parts c') = fun x => curve val (parts c) x + curve val peaks x := by
    rw [← curve_perm val hparts]
    funext x
    exact curve_append val _ _ x
  have hs' : c'.slice = some s := by rw [← hc']; exact hs
  have hr' : c'.r = c.r := by rw [← hc']
  have herr' : c'.err = c.err := by rw [← hc']
  have hy' : c'.y = List.zipWith (fun x y => y + curve val peaks x) c.r c.y := by rw [← hc']
  have he' : Even c' := by
    refine ⟨?_, ?_⟩
    · rw [hy', hr', List.length_zipWith]; have := he.1; omega
    · rw [herr', hr']; exact he.2
  have hcount : counted c'.model cf = counted c.model cf + counted peaks cf := by
    have hmm : c'.model = m := by rw [← hc']
    rw [hmm, counted_perm hmp, counted_append]
  have hsy : s.get c'.y = List.zipWith (fun x y => y + curve val peaks x) (s.get c.r) (s.get c.y) := by
    rw [hy']
    exact getSlice_zipWith _ _ _ _ he.1.symm
  refine ⟨c', hrun, by rw [← hc']; exact hmp, by rw [← hc']; exact hsort, hy', by rw [← hc'], ?_, ?_, ?_⟩
  · obtain ⟨_, _, e1, -, -, e2, -⟩ := c94_residual c h he hs
    obtain ⟨_, _, f1, -, -, f2, -⟩ := c94_residual c' h' he' hs'
    rw [e1, f1, e2, f2, hsy, hr', hcurve]
    congr 1
    have hl : (s.get c.y).length = (s.get c.r).length := length_getSlice_eq _ he.1
    apply List.ext_getElem (by simp)
    intro i h1 h2
    simp
  · intro r
    rw [(c94_pointwise c' h').2 r, hcurve]
  · obtain ⟨a, a1, -, -, a2⟩ := c94_quality .aic c h he hs cf
    obtain ⟨b, b1, -, -, b2⟩ := c94_quality .aic c' h' he' hs' cf
    refine ⟨a, b, _, a1, b1, a2, ?_⟩
    rw [b2, hsy, hr', herr', hcurve, zip_sum_congr, hcount]
    simp only [penalty]
    push_cast
    congr 1
    ring

/-! ## Curves for a plot -/

/-- **C94.** What is plotted: the data of the cluster, and either its whole value or, for each peak in turn,
the baseline plus that peak alone. -/
theorem c94_plottable {val : Part K → K → K} (c : Cluster K) (h : PointwiseBy val (parts c))
    {s : Slice} (hs : c.slice = some s) :
    plottable c true = .ok [s.get c.r, s.get c.y, s.get c.r, (s.get c.r).map (curve val (parts c))] ∧
    plottable c false = .ok (s.get c.r :: s.get c.y :: c.model.flatMap (fun p =>
      [s.get c.r, (s.get c.r).map (fun x => curve val (c.baseline.toList ++ [p]) x)])) := by
  have hv := (c94_pointwise c h).1 s hs
  have hb : PointwiseBy val c.baseline.toList := fun p hp => h p (List.mem_append_left _ hp)
  obtain ⟨b, b1, b2, b3⟩ := base_none hs (measures_of_pointwise hb (s.get c.r))
  have hbl : b = (s.get c.r).map (curve val c.baseline.toList) := by
    rw [list_eq_range b2 (f := sumAt c.baseline.toList (s.get c.r)) (fun i _ => b3 i), sumAt_pointwise hb]
  have hloop : ∀ ps : List (Part K), PointwiseBy val ps → plotCurves c s b ps = .ok (ps.flatMap (fun p =>
      [s.get c.r, (s.get c.r).map (fun x => curve val (c.baseline.toList ++ [p]) x)])) := by
    intro ps hps
    induction ps with
    | nil => rfl
    | cons p ps ih =>
      obtain ⟨out, o1, o2, o3⟩ := part_slice p c.r s.rng (by rw [hps p (by simp), List.length_map])
      unfold plotCurves
      rw [o1]
      show (addArr b (s.get out) >>= fun w => plotCurves c s b ps >>= fun rest =>
        Except.ok (s.get c.r :: w :: rest)) = _
      have hw : addArr b (s.get out) =
          .ok ((s.get c.r).map (fun x => curve val (c.baseline.toList ++ [p]) x)) := by
        have ho : s.get out = (s.get c.r).map (val p) := by
          show getSlice out s.rng = _
          rw [o3, hps p (by simp)]; rfl
        unfold addArr
        rw [ho, hbl, if_pos (by simp)]
        congr 1
        rw [List.zipWith_map, List.zipWith_self]
        apply List.map_congr_left
        intro x _
        rw [curve_append]
        simp [curve]
      rw [hw]
      show (plotCurves c s b ps >>= _) = _
      rw [ih (fun q hq => hps q (by simp [hq]))]
      rfl
  refine ⟨?_, ?_⟩
  · unfold plottable sliceOf
    rw [hs]
    show (clusterValue c none >>= _) = _
    rw [hv]; rfl
  · unfold plottable sliceOf
    rw [hs]
    show (baseValue c none >>= fun bl => plotCurves c s bl c.model >>= _) = _
    rw [b1]
    show (plotCurves c s b c.model >>= _) = _
    rw [hloop c.model (fun p hp => h p (List.mem_append_right _ hp))]
    rfl

end Verif.Parts.ModelCluster
