import Verif.Parts.Props
import Mathlib.Analysis.Calculus.Deriv.Add
import Mathlib.Analysis.Calculus.Deriv.Mul
import Mathlib.Analysis.Calculus.Deriv.Pow
import Mathlib.Tactic.Linarith
import Mathlib.Data.List.GetD

/-!
# Property C16: the residual and its Jacobian
-/

namespace Verif.Parts

open Verif.Py

set_option linter.unusedSectionVars false

/-- The owner evaluates pointwise: value `g pars x` at each `x`, and for each free parameter `k` a
Jacobian row with `h pars k x` at each `x` (`None` for fixed parameters). -/
structure Pointwise (o : Owner ℝ) (g : List ℝ → ℝ → ℝ) (h : List ℝ → ℕ → ℝ → ℝ) : Prop where
  val : ∀ pars l, o.rawValue pars l = l.map (g pars)
  jac : ∀ pars l fr, o.rawJac pars l fr =
    fr.mapIdx (fun k b => if b then some (l.map (h pars k)) else none)

variable (F : Flt ℝ) (G : Owner ℝ → List ℝ → ℝ → ℝ) (H : Owner ℝ → List ℝ → ℕ → ℝ → ℝ)

/-- Sum of the parts at `x`. -/
def total (ps : List (Part ℝ)) (x : ℝ) : ℝ := (ps.map (fun p => G p.owner p.pars x)).sum

/-! ### Value -/

theorem valueLoop_spec (ps : List (Part ℝ)) (hp : ∀ p ∈ ps, Pointwise p.owner (G p.owner) (H p.owner))
    (r : List ℝ) (rng : Option (ℕ × ℕ)) (acc : List ℝ) (hacc : acc.length = r.length) :
    ∃ tot, valueLoop ps r rng acc = .ok tot ∧ tot.length = r.length ∧
      ∀ i x a, r[i]? = some x → acc[i]? = some a → tot[i]? = some
        (a + if (bounds r.length rng).1 ≤ i ∧ i < (bounds r.length rng).2 then total G ps x else 0) := by
  induction ps generalizing acc with
  | nil =>
    refine ⟨acc, rfl, hacc, ?_⟩
    intro i x a _ ha
    simp [total, ha]
  | cons p ps ih =>
    obtain ⟨out, h1, h2, h3⟩ := Function.c20_value (G p.owner) p.pars r rng
    have hv : p.value r rng = .ok out := by
      unfold Part.value
      rw [← h1]
      congr 1
      funext q l
      exact (hp p (by simp)).val q l
    obtain ⟨tot, e1, e2, e3⟩ := ih (fun q hq => hp q (by simp [hq]))
      (List.zipWith (· + ·) acc out) (by simp [hacc, h2])
    refine ⟨tot, by rw [valueLoop, hv]; exact e1, e2, ?_⟩
    intro i x a hx ha
    have hz : (List.zipWith (· + ·) acc out)[i]? = some (a +
        if (bounds r.length rng).1 ≤ i ∧ i < (bounds r.length rng).2 then G p.owner p.pars x else 0) := by
      rw [List.getElem?_zipWith, ha, h3 i x hx]
    rw [e3 i x _ hx hz]
    congr 1
    simp only [total, List.map_cons, List.sum_cons]
    split <;> ring

/-- **C16, value.** The value of a model is the sum of its parts at the points of the range and 0
elsewhere, one number per point. -/
theorem c16_value (ps : List (Part ℝ)) (hp : ∀ p ∈ ps, Pointwise p.owner (G p.owner) (H p.owner))
    (r : List ℝ) (rng : Option (ℕ × ℕ)) :
    ∃ tot, value ps r rng = .ok tot ∧ tot.length = r.length ∧
      ∀ i x, r[i]? = some x → tot[i]? = some
        (if (bounds r.length rng).1 ≤ i ∧ i < (bounds r.length rng).2 then total G ps x else 0) := by
  obtain ⟨tot, h1, h2, h3⟩ := valueLoop_spec G H ps hp r rng (r.map (· * 0)) (by simp)
  refine ⟨tot, h1, h2, ?_⟩
  intro i x hx
  rw [h3 i x 0 hx (by rw [List.getElem?_map, hx]; simp), zero_add]

/-! ### Residual -/

/-- Hypotheses under which the residual is evaluated: arrays of equal length, valid parts holding
floats, pointwise owners, enough free parameters supplied. -/
structure Setting (ps : List (Part ℝ)) (v r y err : List ℝ) : Prop where
  valid : ∀ p ∈ ps, Valid p
  float : ∀ p ∈ ps, p.isInt = false
  pointwise : ∀ p ∈ ps, Pointwise p.owner (G p.owner) (H p.owner)
  nan : ∀ x, F.isnan x = false
  len : v.length = npars ps false
  leny : y.length = r.length
  lene : err.length = r.length

theorem pack_eq (ps : List (Part ℝ)) (v : List ℝ) (hnan : ∀ x, F.isnan x = false)
    (hv : ∀ p ∈ ps, Valid p) (hf : ∀ p ∈ ps, p.isInt = false) (hlen : v.length = npars ps false) :
    pack F ps v = (.ok (), (packLoop F ps v).2) := by
  have h := (packLoop_ok F ps v hv hf hlen.ge).1
  unfold pack
  rw [if_neg (by simp [hnan]), ← h]

/-- **C16, residual.** At the `i`-th point of the range the residual is
`(y_i - Σ parts(x_i)) / err_i`, with the parts carrying the packed parameters. -/
theorem c16_residual (ps : List (Part ℝ)) (v r y err : List ℝ) (rng : Option (ℕ × ℕ))
    (hs : Setting F G H ps v r y err) :
    ∃ res ms, residual F ps v r y err rng = (.ok res, ms) ∧ pack F ps v = (.ok (), ms) ∧
      res.length = (bounds r.length rng).2 - (bounds r.length rng).1 ∧
      ∀ i x yi e, (bounds r.length rng).1 ≤ i → i < (bounds r.length rng).2 → r[i]? = some x →
        y[i]? = some yi → err[i]? = some e →
        res[i - (bounds r.length rng).1]? = some ((yi - total G ms x) / e) := by
  have hpk := pack_eq F ps v hs.nan hs.valid hs.float hs.len
  set ms := (packLoop F ps v).2 with hms
  have hsame := packLoop_same F ps v
  rw [← hms] at hsame
  have hpt : ∀ p ∈ ms, Pointwise p.owner (G p.owner) (H p.owner) := by
    intro p hp
    obtain ⟨q, hq, h⟩ := forall₂_mem hsame p hp
    rw [h.owner]; exact hs.pointwise q hq
  obtain ⟨tot, h1, h2, h3⟩ := c16_value G H ms hpt r rng
  refine ⟨_, ms, by unfold residual; rw [hpk]; simp only [h1]; rfl, hpk, ?_, ?_⟩
  · simp only [List.length_zipWith, length_getSlice, hs.leny, hs.lene, h2, min_self]
  · intro i x yi e hlo hhi hx hy he
    have g1 : (getSlice y rng)[i - (bounds r.length rng).1]? = some yi := by
      rw [← hy, ← hs.leny]; rw [← hs.leny] at hlo hhi
      exact getElem?_getSlice y rng i hlo hhi
    have g2 : (getSlice tot rng)[i - (bounds r.length rng).1]? = some (total G ms x) := by
      have := h3 i x hx
      rw [if_pos ⟨hlo, hhi⟩] at this
      rw [← this, ← h2]; rw [← h2] at hlo hhi
      exact getElem?_getSlice tot rng i hlo hhi
    have g3 : (getSlice err rng)[i - (bounds r.length rng).1]? = some e := by
      rw [← he, ← hs.lene]; rw [← hs.lene] at hlo hhi
      exact getElem?_getSlice err rng i hlo hhi
    rw [List.getElem?_zipWith, List.getElem?_zipWith, g1, g2, g3]

/-! ### Jacobian -/

/-- Position of the `j`-th `True` of a mask. -/
def nthTrue : List Bool → ℕ → ℕ
  | [], _ => 0
  | true :: _, 0 => 0
  | true :: ms, j + 1 => nthTrue ms j + 1
  | false :: ms, j => nthTrue ms j + 1

theorem nthTrue_spec {α : Type} (a : List α) (m : List Bool) (vs : List α) (j : ℕ)
    (h : a.length = m.length) (hv : vs.length = m.count true) (hj : j < m.count true) (t : α) :
    m[nthTrue m j]? = some true ∧ (assignMask a m vs)[nthTrue m j]? = vs[j]? ∧
    assignMask a m (vs.set j t) = (assignMask a m vs).set (nthTrue m j) t := by
  induction a generalizing m vs j with
  | nil => cases m with
    | nil => simp at hj
    | cons b m => simp at h
  | cons x a ih =>
    cases m with
    | nil => simp at h
    | cons b m =>
      cases b with
      | false =>
        have hc : (false :: m).count true = m.count true := by simp
        rw [hc] at hv hj
        obtain ⟨h1, h2, h3⟩ := ih m vs j (by simpa using h) hv hj
        simp only [nthTrue, assignMask, List.getElem?_cons_succ, List.set_cons_succ]
        exact ⟨h1, h2, by rw [h3]⟩
      | true =>
        cases vs with
        | nil => simp at hv
        | cons w vs =>
          cases j with
          | zero => simp [nthTrue, assignMask]
          | succ j =>
            obtain ⟨h1, h2, h3⟩ := ih m vs j (by simpa using h) (by simpa using hv)
              (by simpa using hj)
            simp only [nthTrue, assignMask, List.getElem?_cons_succ, List.set_cons_succ]
            exact ⟨h1, h2, by rw [h3]⟩

theorem filterMap_mapIdx {α : Type} (m : List Bool) (c : ℕ → α) :
    ((m.mapIdx (fun k b => if b then some (c k) else none)).filterMap id).length = m.count true ∧
    ∀ j, j < m.count true →
      ((m.mapIdx (fun k b => if b then some (c k) else none)).filterMap id)[j]? =
        some (c (nthTrue m j)) := by
  induction m generalizing c with
  | nil => simp
  | cons b m ih =>
    obtain ⟨h1, h2⟩ := ih (fun k => c (k + 1))
    rw [List.mapIdx_cons]
    cases b with
    | false =>
      simp only [Bool.false_eq_true, if_false, List.filterMap_cons, id]
      refine ⟨by simpa using h1, ?_⟩
      intro j hj
      exact h2 j (by simpa using hj)
    | true =>
      simp only [if_true, List.filterMap_cons, id]
      refine ⟨by simpa using h1, ?_⟩
      intro j hj
      cases j with
      | zero => simp [nthTrue]
      | succ j =>
        simp only [List.getElem?_cons_succ, nthTrue]
        exact h2 j (by simpa using hj)

/-- The derivatives of a part with respect to its free parameters at `x`. -/
def freeDerivs (p : Part ℝ) (x : ℝ) : List ℝ :=
  (p.free.mapIdx (fun k b => if b then some (H p.owner p.pars k x) else none)).filterMap id

theorem jac_rows {p : Part ℝ} (hp : Pointwise p.owner (G p.owner) (H p.owner)) (r : List ℝ)
    (rng : Option (ℕ × ℕ)) :
    ∃ out, p.jacobian r rng = .ok out ∧ (out.filterMap id).length = p.free.count true ∧
      ∀ j, j < p.free.count true → ∃ row, (out.filterMap id)[j]? = some row ∧
        row.length = r.length ∧ ∀ i x, r[i]? = some x → row[i]? = some
          (if (bounds r.length rng).1 ≤ i ∧ i < (bounds r.length rng).2 then
            (freeDerivs H p x).getD j 0 else 0) := by
  obtain ⟨out, h1, h2, h3⟩ := Function.c20_jacobian (H p.owner) p.pars r p.free rng
  have hj : p.jacobian r rng = .ok out := by
    unfold Part.jacobian
    rw [← h1]
    congr 1
    funext q l fr
    exact hp.jac q l fr
  -- `out` is a masked list of rows: name them
  have hout : ∃ c : ℕ → List ℝ, out = p.free.mapIdx (fun k b => if b then some (c k) else none) := by
    refine ⟨fun k => ((out[k]?).getD none).getD [], ?_⟩
    apply List.ext_getElem?
    intro k
    rw [List.getElem?_mapIdx]
    cases hk : p.free[k]? with
    | none =>
      rw [List.getElem?_eq_none]; rfl
      rw [h2]; exact List.getElem?_eq_none_iff.1 hk
    | some b =>
      obtain ⟨row, hr, hn, -⟩ := h3 k b hk
      rw [hr]
      cases b with
      | false => simp [hn.2 rfl]
      | true =>
        cases row with
        | none => have := hn.1 rfl; simp at this
        | some v => simp [hr]
  obtain ⟨c, hc⟩ := hout
  obtain ⟨f1, f2⟩ := filterMap_mapIdx p.free c
  refine ⟨out, hj, by rw [hc]; exact f1, ?_⟩
  intro j hjlt
  refine ⟨c (nthTrue p.free j), by rw [hc]; exact f2 j hjlt, ?_⟩
  have hfree : p.free[nthTrue p.free j]? = some true :=
    (nthTrue_spec p.free p.free (p.free.filter (· = true)) j rfl
      (by rw [List.count_eq_countP, List.countP_eq_length_filter]; congr 2) hjlt true).1
  obtain ⟨row, hr, -, hv⟩ := h3 _ true hfree
  have hrow : row = some (c (nthTrue p.free j)) := by
    rw [hc, List.getElem?_mapIdx, hfree] at hr
    simpa using hr.symm
  obtain ⟨hl, hx⟩ := hv _ hrow
  refine ⟨hl, ?_⟩
  intro i x hxi
  rw [hx i x hxi]
  have : (freeDerivs H p x).getD j 0 = H p.owner p.pars (nthTrue p.free j) x := by
    unfold freeDerivs
    rw [List.getD_eq_getElem?_getD, (filterMap_mapIdx p.free (fun k => H p.owner p.pars k x)).2 j hjlt]
    rfl
  rw [this]

theorem jacLoop_rows (ms : List (Part ℝ)) (hp : ∀ p ∈ ms, Pointwise p.owner (G p.owner) (H p.owner))
    (r : List ℝ) (rng : Option (ℕ × ℕ)) :
    ∃ out, jacLoop ms r rng = .ok out ∧ (out.filterMap id).length = npars ms false ∧
      ∀ j, j < npars ms false → ∃ row, (out.filterMap id)[j]? = some row ∧ row.length = r.length ∧
        ∀ i x, r[i]? = some x → row[i]? = some
          (if (bounds r.length rng).1 ≤ i ∧ i < (bounds r.length rng).2 then
            (ms.flatMap (fun p => freeDerivs H p x)).getD j 0 else 0) := by
  induction ms with
  | nil => exact ⟨[], rfl, rfl, by intro j hj; simp [npars] at hj⟩
  | cons p ms ih =>
    obtain ⟨o1, a1, a2, a3⟩ := jac_rows G H (hp p (by simp)) r rng
    obtain ⟨o2, b1, b2, b3⟩ := ih (fun q hq => hp q (by simp [hq]))
    have hn : npars (p :: ms) false = p.free.count true + npars ms false := by
      simp [npars, Part.npars]
    have hfl : ∀ x, (freeDerivs H p x).length = p.free.count true := fun x =>
      (filterMap_mapIdx p.free _).1
    refine ⟨o1 ++ o2, by rw [jacLoop, a1]; simp only; rw [b1]; rfl, ?_, ?_⟩
    · rw [List.filterMap_append, List.length_append, a2, b2, hn]
    · intro j hj
      rw [List.filterMap_append]
      by_cases h : j < p.free.count true
      · obtain ⟨row, c1, c2, c3⟩ := a3 j h
        refine ⟨row, by rw [List.getElem?_append_left (by omega)]; exact c1, c2, ?_⟩
        intro i x hx
        rw [c3 i x hx, List.flatMap_cons]
        congr 2
        rw [List.getD_append _ _ _ _ (by rw [hfl]; exact h)]
      · obtain ⟨row, c1, c2, c3⟩ := b3 (j - p.free.count true) (by omega)
        refine ⟨row, by rw [List.getElem?_append_right (by omega), a2]; exact c1, c2, ?_⟩
        intro i x hx
        rw [c3 i x hx, List.flatMap_cons]
        congr 2
        rw [List.getD_append_right _ _ _ _ (by rw [hfl]; omega), hfl]

/-- The part's Jacobian is right at its present parameters: for each free parameter `k` and point `x`
the row entry is the partial derivative. -/
def DerivCorrect (p : Part ℝ) (x : ℝ) : Prop :=
  ∀ k, p.free[k]? = some true →
    HasDerivAt (fun t => G p.owner (p.pars.set k t) x) (H p.owner p.pars k x) (p.pars.getD k 0)

theorem total_hasDerivAt (ps : List (Part ℝ)) (v : List ℝ) (hv : ∀ p ∈ ps, Valid p)
    (hf : ∀ p ∈ ps, p.isInt = false) (hlen : npars ps false ≤ v.length) (x : ℝ)
    (hd : ∀ m ∈ (packLoop F ps v).2, DerivCorrect G H m x) (j : ℕ) (hj : j < npars ps false) :
    HasDerivAt (fun t => total G (packLoop F ps (v.set j t)).2 x)
      (((packLoop F ps v).2.flatMap (fun p => freeDerivs H p x)).getD j 0) (v.getD j 0) := by
  induction ps generalizing v j with
  | nil => simp [npars] at hj
  | cons p ps ih =>
    have hp := hv p (by simp)
    set k := p.npars false with hk
    have hkc : k = p.free.count true := by rw [hk]; simp [Part.npars]
    have hn : npars (p :: ps) false = k + npars ps false := by simp [npars, hk]
    have hstep : ∀ w : List ℝ, w.length = v.length → (packLoop F (p :: ps) w).2 =
        { p with pars := assignMask p.pars p.free (w.take k) } :: (packLoop F ps (w.drop k)).2 := by
      intro w hw
      have htake : (w.take k).length = k := by rw [List.length_take]; omega
      have hupd : p.update F w = (.ok k, { p with pars := assignMask p.pars p.free (w.take k) }) := by
        unfold Part.update
        simp only [hf p (by simp), Bool.false_eq_true, if_false, List.map_id', ← hk]
        rw [if_pos htake]
      rw [packLoop, hupd]
    rw [hstep v rfl] at hd ⊢
    have hfun : (fun t => total G (packLoop F (p :: ps) (v.set j t)).2 x) = fun t =>
        G p.owner (assignMask p.pars p.free ((v.set j t).take k)) x +
          total G (packLoop F ps ((v.set j t).drop k)).2 x := by
      funext t
      rw [hstep _ (by simp)]
      simp [total]
    rw [hfun, List.flatMap_cons]
    have hfl : (freeDerivs H { p with pars := assignMask p.pars p.free (v.take k) } x).length = k := by
      rw [hkc]; exact (filterMap_mapIdx p.free _).1
    by_cases hjk : j < k
    · have hdrop : ∀ t, (v.set j t).drop k = v.drop k := by
        intro t; rw [List.drop_set_of_lt hjk]
      simp only [hdrop]
      rw [List.getD_append _ _ _ _ (by rw [hfl]; exact hjk)]
      have htake : ∀ t, (v.set j t).take k = (v.take k).set j t := by
        intro t; rw [List.take_set]
      simp only [htake]
      have hsp := nthTrue_spec p.pars p.free (v.take k) j (hp.pars.trans hp.free.symm)
        (by rw [List.length_take]; omega) (by omega)
      simp only [fun t => (hsp t).2.2]
      have hdp := hd _ List.mem_cons_self (nthTrue p.free j) (hsp 0).1
      simp only at hdp
      have e1 : (assignMask p.pars p.free (v.take k)).getD (nthTrue p.free j) 0 = v.getD j 0 := by
        rw [List.getD_eq_getElem?_getD, (hsp 0).2.1, List.getElem?_take_of_lt hjk,
          ← List.getD_eq_getElem?_getD]
      rw [e1] at hdp
      have e2 : (freeDerivs H { p with pars := assignMask p.pars p.free (v.take k) } x).getD j 0 =
          H p.owner (assignMask p.pars p.free (v.take k)) (nthTrue p.free j) x := by
        unfold freeDerivs
        rw [List.getD_eq_getElem?_getD, (filterMap_mapIdx p.free _).2 j (by omega)]
        rfl
      rw [e2]
      exact hdp.add_const _
    · have htake : ∀ t, (v.set j t).take k = v.take k := by
        intro t
        rw [List.take_set, List.set_eq_of_length_le]
        rw [List.length_take]; omega
      have hdrop : ∀ t, (v.set j t).drop k = (v.drop k).set (j - k) t := by
        intro t; rw [List.drop_set, if_neg hjk]
      simp only [htake, hdrop]
      rw [List.getD_append_right _ _ _ _ (by rw [hfl]; omega), hfl]
      have hih := ih (v.drop k) (fun q hq => hv q (by simp [hq])) (fun q hq => hf q (by simp [hq]))
        (by rw [List.length_drop]; omega)
        (fun m hm => hd m (List.mem_cons_of_mem _ hm)) (j - k) (by omega)
      have e1 : (v.drop k).getD (j - k) 0 = v.getD j 0 := by
        rw [List.getD_eq_getElem?_getD, List.getElem?_drop, List.getD_eq_getElem?_getD]
        congr 2; omega
      rw [e1] at hih
      exact hih.const_add _

/-- The residual at position `i` as a function of the free parameters. -/
noncomputable def residualAt (ps : List (Part ℝ)) (r y err : List ℝ) (rng : Option (ℕ × ℕ)) (i : ℕ)
    (v : List ℝ) : ℝ :=
  match (residual F ps v r y err rng).1 with
  | .ok res => res.getD i 0
  | .error _ => 0

/-- **C16.** `residual_jacobian` returns one row per free parameter, in the order of
`unpack_freepars`, and each entry is the partial derivative of the corresponding entry of `residual`
with respect to that parameter — provided each part's own Jacobian is right at the packed
parameters. -/
theorem c16_residual_jacobian (ps : List (Part ℝ)) (v r y err : List ℝ) (rng : Option (ℕ × ℕ))
    (hs : Setting F G H ps v r y err) (hne : 0 < v.length)
    (hd : ∀ m ∈ (pack F ps v).2, ∀ x ∈ r, DerivCorrect G H m x) :
    ∃ J ms, residualJacobian F ps v r err rng = (.ok J, ms) ∧ J.length = v.length ∧
      ∀ j, j < v.length → ∃ row, J[j]? = some row ∧
        row.length = (bounds r.length rng).2 - (bounds r.length rng).1 ∧
        ∀ i, i < row.length →
          HasDerivAt (fun t => residualAt F ps r y err rng i (v.set j t)) (row.getD i 0) (v.getD j 0) := by
  have hpk := pack_eq F ps v hs.nan hs.valid hs.float hs.len
  rw [hpk] at hd
  have hsame := packLoop_same F ps v
  set ms := (packLoop F ps v).2 with hms
  have hpt : ∀ p ∈ ms, Pointwise p.owner (G p.owner) (H p.owner) := by
    intro p hp
    obtain ⟨q, hq, h⟩ := forall₂_mem hsame p hp
    rw [h.owner]; exact hs.pointwise q hq
  obtain ⟨out, h1, h2, h3⟩ := jacLoop_rows G H ms hpt r rng
  have hnp : npars ms false = v.length := by rw [npars_same hsame, hs.len]
  rw [hnp] at h2 h3
  have hb := bounds_le r.length rng
  refine ⟨_, ms, by unfold residualJacobian; rw [if_neg (by omega), hpk]; simp only [h1]; rfl, by rw [List.length_map]; exact h2, ?_⟩
  intro j hj
  obtain ⟨row, hr, hrl, hrow⟩ := h3 j hj
  refine ⟨_, by rw [List.getElem?_map, hr]; rfl, ?_, ?_⟩
  · simp only [List.length_zipWith, length_getSlice, List.length_map, hrl, hs.lene, min_self]
  · intro i hi
    simp only [List.length_zipWith, length_getSlice, List.length_map, hrl, hs.lene, min_self] at hi
    set lo := (bounds r.length rng).1 with hlo
    set hi' := (bounds r.length rng).2 with hhi
    obtain ⟨x, hx⟩ : ∃ x, r[lo + i]? = some x := ⟨_, List.getElem?_eq_getElem (by omega)⟩
    obtain ⟨yi, hy⟩ : ∃ x, y[lo + i]? = some x := ⟨_, List.getElem?_eq_getElem (by rw [hs.leny]; omega)⟩
    obtain ⟨e, he⟩ : ∃ x, err[lo + i]? = some x := ⟨_, List.getElem?_eq_getElem (by rw [hs.lene]; omega)⟩
    have hfun : (fun t => residualAt F ps r y err rng i (v.set j t)) =
        fun t => (yi - total G (packLoop F ps (v.set j t)).2 x) / e := by
      funext t
      obtain ⟨res, ms', a1, a2, a3, a4⟩ := c16_residual F G H ps (v.set j t) r y err rng
        ⟨hs.valid, hs.float, hs.pointwise, hs.nan, by simp [hs.len], hs.leny, hs.lene⟩
      have hms' : ms' = (packLoop F ps (v.set j t)).2 := by
        rw [pack_eq F ps (v.set j t) hs.nan hs.valid hs.float (by simp [hs.len])] at a2
        simpa using a2.symm
      have := a4 (lo + i) x yi e (by omega) (by omega) hx hy he
      unfold residualAt
      rw [a1]
      simp only
      rw [List.getD_eq_getElem?_getD, ← hms']
      rw [show lo + i - (bounds r.length rng).1 = i by omega] at this
      rw [this]; rfl
    rw [hfun]
    have hval : (List.zipWith (· / ·) (getSlice (row.map (fun v => -v)) rng) (getSlice err rng)).getD i 0 =
        -((ms.flatMap (fun p => freeDerivs H p x)).getD j 0) / e := by
      have g1 : (getSlice (row.map (fun v => -v)) rng)[i]? =
          some (-((ms.flatMap (fun p => freeDerivs H p x)).getD j 0)) := by
        have := getElem?_getSlice (row.map (fun v => -v)) rng (lo + i)
          (by rw [List.length_map, hrl]; omega) (by rw [List.length_map, hrl]; omega)
        rw [List.length_map, hrl, List.getElem?_map, hrow (lo + i) x hx,
          if_pos ⟨by omega, by omega⟩, show lo + i - (bounds r.length rng).1 = i by omega] at this
        simpa using this
      have g3 : (getSlice err rng)[i]? = some e := by
        have := getElem?_getSlice err rng (lo + i) (by rw [hs.lene]; omega) (by rw [hs.lene]; omega)
        rw [hs.lene, show lo + i - (bounds r.length rng).1 = i by omega] at this
        rw [this, he]
      rw [List.getD_eq_getElem?_getD, List.getElem?_zipWith, g1, g3]
      rfl
    rw [hval]
    have ht := total_hasDerivAt F G H ps v hs.valid hs.float hs.len.ge x
      (fun m hm => hd m hm x (List.mem_of_getElem? hx)) j (by rw [← hs.len]; exact hj)
    have := (ht.const_sub yi).div_const e
    exact this

/-- Non-trivial instance: a straight line with a fixed slope plus a straight line with both
parameters free, at three points. -/
noncomputable def lineOwnerR : Owner ℝ :=
  ⟨0, 2, [("a", 0), ("b", 1)], fun p l => l.map (fun x => p.getD 0 0 + p.getD 1 0 * x),
    fun _ l fr => fr.mapIdx (fun k b => if b then some (l.map (fun x => x ^ k)) else none),
    fun p _ _ => .ok p⟩

example : let G := fun (_ : Owner ℝ) (p : List ℝ) (x : ℝ) => p.getD 0 0 + p.getD 1 0 * x
    let H := fun (_ : Owner ℝ) (_ : List ℝ) (k : ℕ) (x : ℝ) => x ^ k
    let ps : List (Part ℝ) := [⟨lineOwnerR, [1, 2], [true, false], true, false, false⟩,
      ⟨lineOwnerR, [3, 4], [true, true], true, false, false⟩]
    Setting ⟨fun _ => false, id⟩ G H ps [5, 6, 7] [1, 2, 3] [0, 0, 0] [1, 1, 1] ∧
    ∀ m ∈ (pack ⟨fun _ => false, id⟩ ps [5, 6, 7]).2, ∀ x ∈ ([1, 2, 3] : List ℝ), DerivCorrect G H m x := by
  intro G H ps
  have hp : Pointwise lineOwnerR (G lineOwnerR) (H lineOwnerR) := ⟨fun _ _ => rfl, fun _ _ _ => rfl⟩
  refine ⟨⟨?_, ?_, ?_, fun _ => rfl, rfl, rfl, rfl⟩, ?_⟩
  · intro p h
    simp only [ps, List.mem_cons, List.not_mem_nil, or_false] at h
    rcases h with rfl | rfl <;> exact ⟨rfl, rfl⟩
  · intro p h
    simp only [ps, List.mem_cons, List.not_mem_nil, or_false] at h
    rcases h with rfl | rfl <;> rfl
  · intro p h
    simp only [ps, List.mem_cons, List.not_mem_nil, or_false] at h
    rcases h with rfl | rfl <;> exact hp
  · intro m hm x _ k hk
    have hlen : m.pars.length = 2 ∧ m.free.length = 2 := by
      obtain ⟨q, hq, h⟩ := forall₂_mem (c15_pack_keeps_fixed _ ps [5, 6, 7]) m hm
      rw [h.length, h.free]
      simp only [ps, List.mem_cons, List.not_mem_nil, or_false] at hq
      rcases hq with rfl | rfl <;> exact ⟨rfl, rfl⟩
    obtain ⟨a, b, hab⟩ : ∃ a b, m.pars = [a, b] := List.length_eq_two.1 hlen.1
    have hk2 : k < 2 := by
      by_contra hc
      rw [List.getElem?_eq_none (by omega)] at hk
      simp at hk
    simp only [G, H]
    rw [hab]
    have : k = 0 ∨ k = 1 := by omega
    rcases this with rfl | rfl
    · simpa using (hasDerivAt_id a).add_const (b * x)
    · simpa using ((hasDerivAt_id b).mul_const x).const_add a

end Verif.Parts
