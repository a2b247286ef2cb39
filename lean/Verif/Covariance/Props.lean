import Verif.Covariance.Lemmas
import Mathlib.Algebra.Order.Star.Real
import Mathlib.LinearAlgebra.Matrix.PosDef
import Mathlib.Tactic.Positivity
import Mathlib.Tactic.FieldSimp
import Mathlib.Tactic.Ring

/-!
# Properties C22, C23, C24, C56: covariances of a fitted model
-/

set_option linter.unusedSectionVars false

namespace Verif.Parts.Covariance

open Verif.Py

variable {K : Type}

/-- Position, in the vector of the free parameters, of parameter `j` of part `i`: the number of free
parameters before it. -/
def freeRank (ps : List (Part K)) (i j : ℕ) : ℕ :=
  npars (ps.take i) false + (((ps[i]?.map (fun p => p.free)).getD []).take j).count true

theorem selectMask_get {α : Type} (a : List α) (m : List Bool) (h : a.length = m.length) (j : ℕ)
    (hj : m[j]? = some true) : (selectMask a m)[(m.take j).count true]? = a[j]? := by
  induction a generalizing m j with
  | nil => cases m with
    | nil => simp at hj
    | cons => simp at h
  | cons x a ih => cases m with
    | nil => simp at h
    | cons b m =>
      have h' : a.length = m.length := by simpa using h
      match j with
      | 0 =>
        simp only [List.getElem?_cons_zero, Option.some.injEq] at hj
        subst hj
        simp [selectMask]
      | j + 1 =>
        have := ih m h' j (by simpa using hj)
        cases b with
        | true => simp [selectMask, this]
        | false =>
          simp only [List.take_succ_cons, List.getElem?_cons_succ, selectMask]
          rw [List.count_cons]
          simpa using this

/-- `freeRank` is what its name says: the entry of the vector of free parameters at that position is
the value of the parameter. -/
theorem c22_free_rank {ps : List (Part K)} (hv : ∀ p ∈ ps, Valid p) {v : List K}
    (h : unpack ps = .ok v) {i j : ℕ} {p : Part K} (hp : ps[i]? = some p) (hj : p.free[j]? = some true) :
    v[freeRank ps i j]? = p.pars[j]? := by
  unfold unpack at h
  split at h
  · simp at h
  simp only [Except.ok.injEq] at h
  subst h
  unfold freeRank
  rw [hp]
  simp only [Option.map_some, Option.getD_some]
  clear * - hv hp hj
  induction ps generalizing i with
  | nil => simp at hp
  | cons c ps ih =>
    have hc := hv c List.mem_cons_self
    match i with
    | 0 =>
      simp only [List.getElem?_cons_zero, Option.some.injEq] at hp
      subst hp
      have hl : c.pars.length = c.free.length := by have := hc.1; have := hc.2; omega
      have h1 := selectMask_get c.pars c.free hl j hj
      have hjl : j < c.free.length := by
        by_contra hcon
        rw [List.getElem?_eq_none (by omega)] at hj
        simp at hj
      have h2 : (c.free.take j).count true < c.compress.length := by
        by_contra hcon
        have hn : (selectMask c.pars c.free)[(c.free.take j).count true]? = none :=
          List.getElem?_eq_none (by simpa [Part.compress] using hcon)
        rw [hn] at h1
        rw [eq_comm, List.getElem?_eq_none_iff] at h1
        omega
      simp only [List.take_zero, npars, List.map_nil, List.sum_nil, Nat.zero_add, List.flatMap_cons]
      rw [List.getElem?_append_left h2]
      exact h1
    | i + 1 =>
      have := ih (fun q hq => hv q (List.mem_cons_of_mem _ hq)) (i := i) (by simpa using hp)
      simp only [List.take_succ_cons, npars, List.map_cons, List.sum_cons, List.flatMap_cons] at this ⊢
      rw [List.getElem?_append_right (by rw [compress_length hc]; omega), compress_length hc]
      rw [← this]
      congr 1
      omega

/-- `setcovariance` succeeds on a non-empty model and a square matrix of either admissible size. -/
theorem setcov_ok [Zero K] (st : MC K) {ps : List (Part K)} (hwf : WFParts ps) (hne : ps ≠ []) (n : ℕ)
    (hn : n = npars ps true ∨ n = npars ps false) (C : ℕ → ℕ → K) :
    ∃ st' M, setcovariance st ps n n C = (.ok (), st') ∧ st'.cov = some M ∧ st'.model = some ps ∧
      Mapped ps st' ∧ M.n = total ps ∧
      ∀ (i i' : ℕ) p p' j j', ps[i]? = some p → ps[i']? = some p' → j < p.pars.length →
        j' < p'.pars.length →
        M.e (off ps i + j) (off ps i' + j') =
          if n = npars ps true then C (off ps i + j) (off ps i' + j')
          else if p.free[j]? = some true ∧ p'.free[j']? = some true then
            C (freeRank ps i j) (freeRank ps i' j')
          else 0 := by
  unfold setcovariance
  rw [if_neg (by simp), if_neg (by tauto)]
  simp only
  rw [if_neg hne]
  obtain ⟨h1, h2, h3, -⟩ := mapParts_spec ps 0 0 { st with model := some ps }
  have hm := mapParts_mapped ps { st with model := some ps }
  rw [Nat.zero_add] at h1
  rw [npars_true hwf]
  generalize mapParts ps 0 0 { st with model := some ps } = q at *
  obtain ⟨st', n'⟩ := q
  simp only at h1 h2 h3 hm
  subst h1
  by_cases hc : total ps = n
  · simp only [if_pos hc]
    refine ⟨_, _, rfl, rfl, h3, ⟨hm.pmap, hm.ipmap, hm.mmap⟩, rfl, ?_⟩
    intro i i' p p' j j' _ _ _ _
    simp only
    rw [if_pos hc.symm]
  · simp only [if_neg hc]
    refine ⟨_, _, rfl, rfl, h3, ⟨hm.pmap, hm.ipmap, hm.mmap⟩, rfl, ?_⟩
    intro i i' p p' j j' hp hp' hj hj'
    simp only
    rw [if_neg (fun h => hc h.symm), expandRows_spec]
    obtain ⟨a1, a2⟩ := free_flat hwf hp hj
    obtain ⟨b1, b2⟩ := free_flat hwf hp' hj'
    simp only [Nat.zero_le, Nat.sub_zero, Nat.zero_add, true_and]
    rw [a1, b1, a2, b2]
    unfold freeRank
    rw [hp, hp']
    simp only [Option.map_some, Option.getD_some]

/-- **C22.** `setcovariance(model, C)` on any covariance object (fresh or reused):
* raises ValueError and changes nothing if `C` is not square, or its size is neither the number of
  free parameters nor the number of all parameters;
* otherwise succeeds (the model having at least one part), after which the covariance of parameter `j`
  of part `i` with parameter `j'` of part `i'` is: the corresponding entry of `C` if `C` has all
  parameters; else the entry for their positions among the free parameters if both are free, and
  0 if either is fixed. -/
theorem c22_setcovariance [Zero K] (st : MC K) {ps : List (Part K)} (hwf : WFParts ps)
    (rows cols : ℕ) (C : ℕ → ℕ → K) :
    ((rows ≠ cols ∨ (rows ≠ npars ps true ∧ rows ≠ npars ps false)) →
      setcovariance st ps rows cols C = (.error .value, st)) ∧
    (rows = cols → (rows = npars ps true ∨ rows = npars ps false) → ps ≠ [] →
      ∃ st', setcovariance st ps rows cols C = (.ok (), st') ∧
        ∀ (i i' : ℕ) p p' j j', ps[i]? = some p → ps[i']? = some p' → j < p.pars.length →
          j' < p'.pars.length →
          st'.getcovariance (.pair i j) (.pair i' j') = .ok (
            if rows = npars ps true then C (off ps i + j) (off ps i' + j')
            else if p.free[j]? = some true ∧ p'.free[j']? = some true then
              C (freeRank ps i j) (freeRank ps i' j')
            else 0)) := by
  constructor
  · intro h
    unfold setcovariance
    by_cases h1 : rows ≠ cols
    · rw [if_pos h1]
    · rw [if_neg h1, if_pos (h.resolve_left h1)]
  · intro h1 h2 hne
    subst h1
    obtain ⟨st', M, e1, e2, -, e4, e5, e6⟩ := setcov_ok st hwf hne rows h2 C
    refine ⟨st', e1, ?_⟩
    intro i i' p p' j j' hp hp' hj hj'
    unfold MC.getcovariance
    rw [e2]
    simp only [MC.index, e4.pmap i p hp j hj, e4.pmap i' p' hp' j' hj', Mat.get]
    rw [if_pos (by rw [e5]; exact ⟨off_add_lt hp hj, off_add_lt hp' hj'⟩), e6 i i' p p' j j' hp hp' hj hj']

/-- **C22.** The two ways of designating a parameter agree: after `setcovariance`, the `n`-th parameter
of the model, counting all parameters of part 0, then part 1, ..., has the same value and the same
covariances as the corresponding (part, parameter) tuple, and its value is that of the model. -/
theorem c22_numbering [Zero K] (st st' : MC K) {ps : List (Part K)} (hwf : WFParts ps) (hne : ps ≠ [])
    (n : ℕ) (hn : n = npars ps true ∨ n = npars ps false) (C : ℕ → ℕ → K)
    (h : setcovariance st ps n n C = (.ok (), st')) :
    (∀ (i : ℕ) p j, ps[i]? = some p → j < p.pars.length →
      st'.locate (.num (off ps i + j)) = .ok (i, j) ∧
      st'.getvalue (.num (off ps i + j)) = st'.getvalue (.pair i j) ∧
      (∃ v, p.pars[j]? = some v ∧ st'.getvalue (.pair i j) = .ok v) ∧
      ∀ w, st'.getcovariance (.num (off ps i + j)) w = st'.getcovariance (.pair i j) w) ∧
    (∀ m, total ps ≤ m → st'.getcovariance (.num m) (.num m) = .error .index) ∧
    (∀ m, m < total ps → ∃ (i : ℕ) (p : Part K) (j : ℕ), ps[i]? = some p ∧ j < p.pars.length ∧
      m = off ps i + j) := by
  obtain ⟨st'', M, e1, e2, e3, e4, e5, -⟩ := setcov_ok st hwf hne n hn C
  rw [e1] at h
  simp only [Prod.mk.injEq, true_and] at h
  subst h
  refine ⟨?_, ?_, fun m hm => exists_split hm⟩
  · intro i p j hp hj
    have hloc : st''.locate (.num (off ps i + j)) = .ok (i, j) := by
      simp only [MC.locate, e4.ipmap i p hp j hj]
    have hloc2 : st''.locate (.pair i j) = .ok (i, j) := by
      simp only [MC.locate, e4.pmap i p hp j hj]
    refine ⟨hloc, ?_, ?_, ?_⟩
    · unfold MC.getvalue
      rw [hloc, hloc2]
    · refine ⟨p.pars[j], List.getElem?_eq_getElem hj, ?_⟩
      unfold MC.getvalue
      rw [hloc2]
      simp only [e3, hp, Part.get, Part.position, pyIndex]
      rw [if_pos (by constructor <;> omega)]
      simp [List.getElem?_eq_getElem hj]
    · intro w
      unfold MC.getcovariance
      rw [e2]
      simp only [MC.index, e4.pmap i p hp j hj]
  · intro m hm
    unfold MC.getcovariance
    rw [e2]
    simp only [MC.index, Mat.get]
    rw [if_neg (by omega)]

/-- **C22, finding.** `setcovariance` on a used object does not forget the previous model: after a model
with two parts is replaced by one with a single part, the second part of the old model is still
accepted as a designation and an index. -/
theorem c22_stale_map :
    ∃ st1 st2, setcovariance (MC.empty : MC ℚ) [⟨lineOwner, [1, 2], [true, true], true, false, false⟩,
        ⟨lineOwner, [3, 4], [true, true], true, false, false⟩] 4 4 (fun _ _ => 1) = (.ok (), st1) ∧
      setcovariance st1 [⟨lineOwner, [5, 6], [true, true], true, false, false⟩] 2 2 (fun _ _ => 1) =
        (.ok (), st2) ∧
      st2.locate (.pair 1 0) = .ok (1, 0) ∧ st2.index (.pair 1 0) = .ok 2 ∧
      st2.getcovariance (.pair 1 0) (.pair 1 0) = .error .index := by
  refine ⟨_, _, rfl, rfl, ?_, ?_, ?_⟩ <;> rfl

/-! ### C23: correlations -/

/-- The matrix held by a covariance object, as a Mathlib matrix. -/
def Mat.toMatrix (M : Mat K) : Matrix (Fin M.n) (Fin M.n) K := fun i j => M.e i j

theorem psd_minor {n : ℕ} {V : Matrix (Fin n) (Fin n) ℝ} (h : V.PosSemidef) (i j : Fin n) :
    V i j ^ 2 ≤ V i i * V j j ∧ 0 ≤ V i i ∧ V i j = V j i := by
  have hsym : V i j = V j i := by
    have := h.1
    have := congrFun (congrFun this j) i
    simpa [Matrix.conjTranspose] using this
  have hii : ∀ k, 0 ≤ V k k := fun k => h.diag_nonneg
  refine ⟨?_, hii i, hsym⟩
  have quad : ∀ s t : ℝ, 0 ≤ s ^ 2 * V i i + 2 * s * t * V i j + t ^ 2 * V j j := by
    intro s t
    have h2 := (h.2 : _) 
    have := h.dotProduct_mulVec_nonneg (fun k => (if k = i then s else 0) + (if k = j then t else 0))
    have e : star (fun k => (if k = i then s else 0) + (if k = j then t else 0)) ⬝ᵥ
        Matrix.mulVec V (fun k => (if k = i then s else 0) + (if k = j then t else 0)) =
        s ^ 2 * V i i + s * t * V i j + s * t * V j i + t ^ 2 * V j j := by
      simp [dotProduct, Matrix.mulVec, add_mul, mul_add, Finset.sum_add_distrib]
      ring
    rw [e, ← hsym] at this
    linarith
  by_cases hz : V i i = 0
  · by_cases hw : V i j = 0
    · rw [hz, hw]; simp
    · exfalso
      have q := quad (-(V j j + 1) / (2 * V i j)) 1
      rw [hz] at q
      have e : 2 * (-(V j j + 1) / (2 * V i j)) * 1 * V i j = -(V j j + 1) := by
        field_simp
      rw [e] at q
      linarith
  · have hpos : 0 < V i i := lt_of_le_of_ne (hii i) (Ne.symm hz)
    have q := quad (-(V i j)) (V i i)
    have : V i i * (V i j ^ 2) ≤ V i i * (V i i * V j j) := by nlinarith
    exact le_of_mul_le_mul_left this hpos

theorem corr_eq {st : MC ℝ} {M : Mat ℝ} (hM : st.cov = some M) {i j : Var} {a b : ℕ}
    (hi : st.index i = .ok a) (hj : st.index j = .ok b) (ha : a < M.n) (hb : b < M.n) :
    getcorrelation st i j = if M.e a a = 0 ∨ M.e b b = 0 then .ok (some 0)
      else if M.e a a < 0 ∨ M.e b b < 0 then .ok none
      else .ok (some (M.e a b / (Real.sqrt (M.e a a) * Real.sqrt (M.e b b)))) := by
  unfold getcorrelation
  rw [hM]
  simp only [hi, hj, Mat.get, ha, hb, and_self, if_true]

/-- **C23.** For a positive semidefinite (and so symmetric) covariance matrix, for any two variables of
the model designated either way: the correlation is defined, does not depend on the order, lies in
`[-1, 1]`, times both uncertainties equals the covariance; it is 1 of a variable with itself if its
variance is positive, and 0 if one of the variances is 0. -/
theorem c23_correlation {st : MC ℝ} {M : Mat ℝ} (hM : st.cov = some M) (hpsd : M.toMatrix.PosSemidef)
    {i j : Var} {a b : ℕ} (hi : st.index i = .ok a) (hj : st.index j = .ok b) (ha : a < M.n)
    (hb : b < M.n) :
    ∃ c, getcorrelation st i j = .ok (some c) ∧ getcorrelation st j i = .ok (some c) ∧
      -1 ≤ c ∧ c ≤ 1 ∧
      c * (Real.sqrt (M.e a a) * Real.sqrt (M.e b b)) = M.e a b ∧
      (0 < M.e a a → a = b → c = 1) ∧ (M.e a a = 0 ∨ M.e b b = 0 → c = 0) := by
  obtain ⟨h1, h2, h3⟩ := psd_minor hpsd ⟨a, ha⟩ ⟨b, hb⟩
  have h4 : 0 ≤ M.e b b := (psd_minor hpsd ⟨b, hb⟩ ⟨a, ha⟩).2.1
  simp only [Mat.toMatrix] at h1 h2 h3
  rw [corr_eq hM hi hj ha hb, corr_eq hM hj hi hb ha]
  by_cases hz : M.e a a = 0 ∨ M.e b b = 0
  · have hc : M.e a b = 0 := by
      have : M.e a b ^ 2 ≤ 0 := by rcases hz with h | h <;> rw [h] at h1 <;> linarith
      have := sq_nonneg (M.e a b)
      have : M.e a b ^ 2 = 0 := by linarith
      simpa using this
    rw [if_pos hz, if_pos hz.symm]
    refine ⟨0, rfl, rfl, by norm_num, by norm_num, by rw [hc, zero_mul], ?_, fun _ => rfl⟩
    intro hp hab
    subst hab
    rcases hz with h | h <;> linarith
  · have hz' := hz
    push Not at hz'
    have pa : 0 < M.e a a := lt_of_le_of_ne h2 (Ne.symm hz'.1)
    have pb : 0 < M.e b b := lt_of_le_of_ne h4 (Ne.symm hz'.2)
    have hs : 0 < Real.sqrt (M.e a a) * Real.sqrt (M.e b b) := by positivity
    have hsq : (Real.sqrt (M.e a a) * Real.sqrt (M.e b b)) ^ 2 = M.e a a * M.e b b := by
      rw [mul_pow, Real.sq_sqrt h2, Real.sq_sqrt h4]
    have habs := abs_le_of_sq_le_sq' (show M.e a b ^ 2 ≤ _ by rw [← hsq] at h1; exact h1) hs.le
    rw [if_neg hz, if_neg (by push Not; exact ⟨h2, h4⟩), if_neg (by tauto),
      if_neg (by push Not; exact ⟨h4, h2⟩)]
    refine ⟨_, rfl, ?_, ?_, ?_, ?_, ?_, ?_⟩
    · rw [h3, mul_comm]
    · rw [le_div_iff₀ hs]; linarith [habs.1]
    · rw [div_le_iff₀ hs]; linarith [habs.2]
    · exact div_mul_cancel₀ _ hs.ne'
    · intro _ hab
      subst hab
      rw [Real.mul_self_sqrt h2, div_self pa.ne']
    · intro h; exact absurd h hz

/-- **C23.** A fixed parameter of a model whose free parameters alone were given has uncertainty 0 and no
correlations. -/
theorem c23_fixed_parameters (st st' : MC ℝ) {ps : List (Part ℝ)} (hwf : WFParts ps) (hne : ps ≠ [])
    (C : ℕ → ℕ → ℝ) (hfix : npars ps false ≠ npars ps true)
    (h : setcovariance st ps (npars ps false) (npars ps false) C = (.ok (), st'))
    {i j : ℕ} {p : Part ℝ} (hp : ps[i]? = some p) (hj : p.free[j]? = some false) :
    getuncertainty st' (.pair i j) = .ok (some 0) ∧
    ∀ (i' j' : ℕ) p', ps[i']? = some p' → j' < p'.pars.length →
      getcorrelation st' (.pair i j) (.pair i' j') = .ok (some 0) := by
  have hj' : j < p.pars.length := by
    have hw := hwf p (List.mem_of_getElem? hp)
    by_contra hc
    rw [List.getElem?_eq_none (by omega)] at hj
    simp at hj
  obtain ⟨st'', M, e1, e2, e3, e4, e5, e6⟩ := setcov_ok st hwf hne _ (Or.inr rfl) C
  rw [e1] at h
  simp only [Prod.mk.injEq, true_and] at h
  subst h
  have hz : M.e (off ps i + j) (off ps i + j) = 0 := by
    rw [e6 i i p p j j hp hp hj' hj', if_neg hfix, if_neg (by rw [hj]; simp)]
  have hi : st''.index (.pair i j) = .ok (off ps i + j) := by
    simp only [MC.index, e4.pmap i p hp j hj']
  have hlt : off ps i + j < M.n := by rw [e5]; exact off_add_lt hp hj'
  constructor
  · have hg : st''.getcovariance (.pair i j) (.pair i j) = .ok 0 := by
      unfold MC.getcovariance
      rw [e2]
      simp only [hi, Mat.get, hlt, and_self, if_true, hz]
    unfold getuncertainty
    simp only [MC.locate, e4.pmap i p hp j hj', hg]
    simp
  · intro i' j' p' hp' hj''
    have hi' : st''.index (.pair i' j') = .ok (off ps i' + j') := by
      simp only [MC.index, e4.pmap i' p' hp' j' hj'']
    rw [corr_eq e2 hi hi' hlt (by rw [e5]; exact off_add_lt hp' hj''), if_pos (Or.inl hz)]

/-- **C23.** After `setcovariance` (of all or of the free parameters) every parameter has an uncertainty: the
non-negative number whose square is its variance, or NaN if the variance is negative; its covariance with itself is
that variance. -/
theorem c23_uncertainty (st st' : MC ℝ) {ps : List (Part ℝ)} (hwf : WFParts ps) (hne : ps ≠ []) (n : ℕ)
    (hn : n = npars ps true ∨ n = npars ps false) (C : ℕ → ℕ → ℝ)
    (h : setcovariance st ps n n C = (.ok (), st')) {i j : ℕ} {p : Part ℝ} (hp : ps[i]? = some p)
    (hj : j < p.pars.length) :
    ∃ v, st'.getcovariance (.pair i j) (.pair i j) = .ok v ∧
      (0 ≤ v → ∃ u, getuncertainty st' (.pair i j) = .ok (some u) ∧ 0 ≤ u ∧ u * u = v) ∧
      (v < 0 → getuncertainty st' (.pair i j) = .ok none) := by
  obtain ⟨st'', M, e1, e2, e3, e4, e5, e6⟩ := setcov_ok st hwf hne n hn C
  rw [e1] at h
  simp only [Prod.mk.injEq, true_and] at h
  subst h
  have hi : st''.index (.pair i j) = .ok (off ps i + j) := by
    simp only [MC.index, e4.pmap i p hp j hj]
  have hlt : off ps i + j < M.n := by rw [e5]; exact off_add_lt hp hj
  have hg : st''.getcovariance (.pair i j) (.pair i j) = .ok (M.e (off ps i + j) (off ps i + j)) := by
    unfold MC.getcovariance
    rw [e2]
    simp only [hi, Mat.get, hlt, and_self, if_true]
  refine ⟨_, hg, ?_, ?_⟩
  · intro h0
    refine ⟨Real.sqrt (M.e (off ps i + j) (off ps i + j)), ?_, Real.sqrt_nonneg _, Real.mul_self_sqrt h0⟩
    unfold getuncertainty
    simp only [MC.locate, e4.pmap i p hp j hj, hg, if_neg (not_lt.2 h0)]
  · intro h0
    unfold getuncertainty
    simp only [MC.locate, e4.pmap i p hp j hj, hg, if_pos h0]

/-! ### C56: correlationwarning -/

theorem mem_pairs (n i j : ℕ) : (i, j) ∈ pairs n ↔ i < j ∧ j < n := by
  unfold pairs
  simp only [List.mem_flatMap, List.mem_range, List.mem_map, List.mem_range', Prod.mk.injEq]
  constructor
  · rintro ⟨a, ha, b, ⟨k, hk, rfl⟩, rfl, rfl⟩
    omega
  · rintro ⟨h1, h2⟩
    exact ⟨i, by omega, j, ⟨j - (i + 1), by omega, by omega⟩, rfl, rfl⟩

/-- The variables of a correlation warning. -/
noncomputable def warnOf (st : MC ℝ) (threshold : ℝ) (ij : ℕ × ℕ) : Option ((ℕ × ℕ) × (ℕ × ℕ) × ℝ) :=
  match getcorrelation st (.num ij.1) (.num ij.2), Dict.get? st.ipmap ij.1, Dict.get? st.ipmap ij.2 with
  | .ok (some c), some a, some b => if c ≠ 0 ∧ threshold < |c| then some (a, b, c) else none
  | _, _, _ => none

theorem warn_fold {st : MC ℝ} {threshold : ℝ} (l : List (ℕ × ℕ)) :
    ∀ acc, (∀ ij ∈ l, (∃ c, getcorrelation st (.num ij.1) (.num ij.2) = .ok (some c)) ∧
        (∃ a, Dict.get? st.ipmap ij.1 = some a) ∧ ∃ b, Dict.get? st.ipmap ij.2 = some b) →
      l.foldlM (warnStep st threshold) acc = .ok (acc ++ l.filterMap (warnOf st threshold)) := by
  induction l with
  | nil => intro acc _; simp; rfl
  | cons ij l ih =>
    intro acc h
    obtain ⟨⟨c, hc⟩, ⟨a, ha⟩, ⟨b, hb⟩⟩ := h ij List.mem_cons_self
    have h' := fun x hx => h x (List.mem_cons_of_mem _ hx)
    rw [List.foldlM_cons]
    by_cases ht : c ≠ 0 ∧ threshold < |c|
    · have e1 : warnStep st threshold acc ij = .ok (acc ++ [(a, b, c)]) := by
        unfold warnStep; simp only [hc, ha, hb]; rw [if_pos ht]
      have e2 : warnOf st threshold ij = some (a, b, c) := by
        unfold warnOf; simp only [hc, ha, hb]; rw [if_pos ht]
      rw [e1]
      show (l.foldlM (warnStep st threshold) (acc ++ [(a, b, c)]) : Res _) = _
      rw [ih _ h', List.filterMap_cons_some e2]
      simp
    · have e1 : warnStep st threshold acc ij = .ok acc := by
        unfold warnStep; simp only [hc]; rw [if_neg ht]
      have e2 : warnOf st threshold ij = none := by
        unfold warnOf; simp only [hc, ha, hb]; rw [if_neg ht]
      rw [e1]
      show (l.foldlM (warnStep st threshold) acc : Res _) = _
      rw [ih _ h', List.filterMap_cons_none e2]

/-- **C56.** After `setcovariance` with a covariance matrix that is positive semidefinite,
`correlationwarning(t)`, `t ≥ 0`, lists exactly the pairs of different parameters (each once, the
earlier one first) whose correlation exceeds `t` in absolute value, with that correlation. -/
theorem c56_correlationwarning {st : MC ℝ} {M : Mat ℝ} {ps : List (Part ℝ)} (hM : st.cov = some M)
    (hpsd : M.toMatrix.PosSemidef) (hmap : Mapped ps st) (hn : M.n = total ps) {t : ℝ} (ht : 0 ≤ t) :
    ∃ l, correlationwarning st t = .ok l ∧
      ∀ x y c, (x, y, c) ∈ l ↔
        ∃ m m', m < m' ∧ m' < total ps ∧ st.locate (.num m) = .ok x ∧ st.locate (.num m') = .ok y ∧
          getcorrelation st (.num m) (.num m') = .ok (some c) ∧ t < |c| := by
  have hip : ∀ m, m < total ps → ∃ a, Dict.get? st.ipmap m = some a := by
    intro m hm
    obtain ⟨i, p, j, h1, h2, h3⟩ := exists_split hm
    exact ⟨_, by rw [h3]; exact hmap.ipmap i p h1 j h2⟩
  have hcor : ∀ m m', m < total ps → m' < total ps →
      ∃ c, getcorrelation st (.num m) (.num m') = .ok (some c) := by
    intro m m' h1 h2
    obtain ⟨c, hc, -⟩ := c23_correlation hM hpsd (i := .num m) (j := .num m') (a := m) (b := m') rfl rfl
      (by omega) (by omega)
    exact ⟨c, hc⟩
  refine ⟨[] ++ (pairs M.n).filterMap (warnOf st t), ?_, ?_⟩
  · unfold correlationwarning
    rw [hM]
    exact warn_fold _ [] (fun ij hij => by
      have := (mem_pairs M.n ij.1 ij.2).1 hij
      exact ⟨hcor _ _ (by omega) (by omega), hip _ (by omega), hip _ (by omega)⟩)
  · intro x y c
    rw [List.nil_append, List.mem_filterMap]
    constructor
    · rintro ⟨⟨m, m'⟩, hm, hw⟩
      have hmm := (mem_pairs M.n m m').1 hm
      obtain ⟨c', hc'⟩ := hcor m m' (by omega) (by omega)
      obtain ⟨a, ha⟩ := hip m (by omega)
      obtain ⟨b, hb⟩ := hip m' (by omega)
      unfold warnOf at hw
      simp only [hc', ha, hb] at hw
      split at hw
      · rename_i hcond
        simp only [Option.some.injEq, Prod.mk.injEq] at hw
        obtain ⟨rfl, rfl, rfl⟩ := hw
        exact ⟨m, m', hmm.1, by omega, by simp [MC.locate, ha], by simp [MC.locate, hb], hc', hcond.2⟩
      · simp at hw
    · rintro ⟨m, m', h1, h2, h3, h4, h5, h6⟩
      refine ⟨(m, m'), (mem_pairs M.n m m').2 ⟨h1, by omega⟩, ?_⟩
      obtain ⟨a, ha⟩ := hip m (by omega)
      obtain ⟨b, hb⟩ := hip m' (by omega)
      simp only [MC.locate, ha, Except.ok.injEq] at h3
      simp only [MC.locate, hb, Except.ok.injEq] at h4
      subst h3 h4
      unfold warnOf
      simp only [h5, ha, hb]
      rw [if_pos ⟨by rintro rfl; simp at h6; linarith, h6⟩]

/-- Instance of C22: two parts, one parameter fixed; matrices of both sizes are accepted, others are not. -/
example : WFParts exParts ∧ exParts ≠ [] ∧ npars exParts true = 4 ∧ npars exParts false = 3 ∧
    (∀ C : ℕ → ℕ → ℚ, (setcovariance MC.empty exParts 3 3 C).1 = .ok () ∧ (setcovariance MC.empty exParts 4 4 C).1 = .ok () ∧
      (setcovariance MC.empty exParts 2 2 C).1 = .error .value) ∧
    (setcovariance MC.empty exParts 3 3 (fun a b => (a + 10 * b : ℚ))).2.getcovariance (.pair 1 1) (.pair 0 0) = .ok 2 ∧
    (setcovariance MC.empty exParts 3 3 (fun a b => (a + 10 * b : ℚ))).2.getcovariance (.pair 0 1) (.pair 0 0) = .ok 0 := by
  have hwf : WFParts exParts := by
    intro p hp
    simp only [exParts, List.mem_cons, List.not_mem_nil, or_false] at hp
    rcases hp with rfl | rfl <;> exact ⟨rfl, rfl⟩
  refine ⟨hwf, by simp [exParts], rfl, rfl, fun C => ⟨?_, ?_, ?_⟩, ?_, ?_⟩
  · obtain ⟨st, M, h, -⟩ := setcov_ok MC.empty hwf (by simp [exParts]) 3 (Or.inr rfl) C
    rw [h]
  · obtain ⟨st, M, h, -⟩ := setcov_ok MC.empty hwf (by simp [exParts]) 4 (Or.inl rfl) C
    rw [h]
  · rw [(c22_setcovariance MC.empty hwf 2 2 C).1 (Or.inr ⟨by decide, by decide⟩)]
  · obtain ⟨st, h1, h2⟩ := (c22_setcovariance MC.empty hwf 3 3 (fun a b => (a + 10 * b : ℚ))).2 rfl (Or.inr rfl) (by simp [exParts])
    rw [h1, h2 1 0 _ _ 1 0 rfl rfl (by decide) (by decide)]
    decide +kernel
  · obtain ⟨st, h1, h2⟩ := (c22_setcovariance MC.empty hwf 3 3 (fun a b => (a + 10 * b : ℚ))).2 rfl (Or.inr rfl) (by simp [exParts])
    rw [h1, h2 0 0 _ _ 1 0 rfl rfl (by decide) (by decide)]
    decide +kernel

/-- A part over the reals with two parameters. -/
noncomputable def realPart (f : Bool) : Part ℝ :=
  ⟨⟨0, 2, [], fun _ r => r, fun _ _ _ => [none, none], fun v _ _ => .ok v⟩, [1, 2], [true, f], true, false, false⟩

theorem realPart_wf (f : Bool) : WFParts [realPart f] := by
  intro q hq
  rw [List.mem_singleton.1 hq]
  exact ⟨rfl, rfl⟩

/-- Instance of C23 and C56: two fully correlated parameters; the warning is given. -/
example : ∃ (st : MC ℝ) (M : Mat ℝ) (l : List _), setcovariance MC.empty [realPart true] 2 2 (fun _ _ => 1) = (.ok (), st) ∧
    st.cov = some M ∧ M.toMatrix.PosSemidef ∧ Mapped [realPart true] st ∧ M.n = total [realPart true] ∧
    getcorrelation st (.num 0) (.num 1) = .ok (some 1) ∧ correlationwarning st (1 / 2) = .ok l ∧ ((0, 0), (0, 1), 1) ∈ l := by
  obtain ⟨st, M, h1, h2, h3, h4, h5, h6⟩ := setcov_ok (MC.empty : MC ℝ) (realPart_wf true) (by simp) 2 (Or.inl rfl) (fun _ _ => 1)
  have hone : M.toMatrix = Matrix.vecMulVec 1 (star 1) := by
    ext a b
    obtain ⟨i, q, j, hq, hj, e1⟩ := exists_split (h5 ▸ a.2 : (a : ℕ) < total [realPart true])
    obtain ⟨i', q', j', hq', hj', e2⟩ := exists_split (h5 ▸ b.2 : (b : ℕ) < total [realPart true])
    unfold Mat.toMatrix
    rw [e1, e2, h6 i i' q q' j j' hq hq' hj hj', if_pos (show 2 = npars [realPart true] true from rfl)]
    simp [Matrix.vecMulVec]
  have hpsd : M.toMatrix.PosSemidef := by rw [hone]; exact Matrix.posSemidef_vecMulVec_self_star 1
  have ht : total [realPart true] = 2 := rfl
  have he : ∀ j j', j < 2 → j' < 2 → M.e j j' = 1 := by
    intro j j' hj hj'
    have := h6 0 0 _ _ j j' rfl rfl hj hj'
    rw [if_pos (show 2 = npars [realPart true] true from rfl)] at this
    simpa [off] using this
  obtain ⟨c, c1, -, -, -, c2, -⟩ := c23_correlation h2 hpsd (i := .num 0) (j := .num 1) (a := 0) (b := 1) rfl rfl (by omega) (by omega)
  rw [he 0 0 (by omega) (by omega), he 1 1 (by omega) (by omega), he 0 1 (by omega) (by omega)] at c2
  simp only [Real.sqrt_one, mul_one] at c2
  rw [c2] at c1
  obtain ⟨l, l1, l2⟩ := c56_correlationwarning h2 hpsd h4 h5 (t := 1 / 2) (by norm_num)
  refine ⟨st, M, l, h1, h2, hpsd, h4, h5, c1, l1, (l2 _ _ _).2 ⟨0, 1, by omega, by omega, ?_, ?_, c1, by norm_num⟩⟩
  · exact ((c22_numbering MC.empty st (realPart_wf true) (by simp) 2 (Or.inl rfl) _ h1).1 0 _ 0 rfl (by decide)).1
  · exact ((c22_numbering MC.empty st (realPart_wf true) (by simp) 2 (Or.inl rfl) _ h1).1 0 _ 1 rfl (by decide)).1

/-- Instance of `c23_fixed_parameters` and `c23_uncertainty`: the second parameter is fixed. -/
example : WFParts [realPart false] ∧ npars [realPart false] false ≠ npars [realPart false] true ∧
    ∃ st, setcovariance (MC.empty : MC ℝ) [realPart false] 1 1 (fun _ _ => 4) = (.ok (), st) ∧
      getuncertainty st (.pair 0 1) = .ok (some 0) := by
  obtain ⟨st, M, h1, -⟩ := setcov_ok (MC.empty : MC ℝ) (realPart_wf false) (by simp) 1 (Or.inr rfl) (fun _ _ => 4)
  have hne : npars [realPart false] false ≠ npars [realPart false] true := by decide
  exact ⟨realPart_wf false, hne, st, h1, (c23_fixed_parameters MC.empty st (realPart_wf false) (by simp) _ hne h1 (i := 0) (j := 1) rfl rfl).1⟩

end Verif.Parts.Covariance
