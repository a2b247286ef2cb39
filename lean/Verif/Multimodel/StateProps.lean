import Verif.Multimodel.StateLemmas

/-!
# C79: the object `MultimodelSelection` — what its queries answer after `makeaics` and `classify`
-/

namespace Verif.Multimodel

open Verif.Py

set_option linter.unusedSectionVars false

variable {R D : Type} [DecidableEq D]

/-! ### Specification -/

/-- `f` puts the models with the numbers below `n` into classes: every model in exactly one class, no class empty, and
the dictionary from models to classes agrees.  C44 shows it of the loops of `classify`. -/
def Partitions (c : List (List ℕ) × List (ℕ × ℕ)) (n : ℕ) : Prop :=
  c.1.flatten.Perm (List.range n) ∧ (∀ cls ∈ c.1, cls ≠ []) ∧
    ∀ (k : ℕ) cls i, c.1[k]? = some cls → i ∈ cls → classOf c.2 i = some k

/-- `dg` is the first of `dgs` at which `f` is largest. -/
def FirstBest (dgs : List D) (f : D → ℝ) (dg : D) : Prop :=
  ∃ before after, dgs = before ++ dg :: after ∧ (∀ d ∈ before, f d < f dg) ∧ ∀ d ∈ after, f d ≤ f dg

/-- **C79.** The hypothesis of the theorems below holds of the classification of any models (C44). -/
theorem c79_partitions {K : Type} [Field K] [LinearOrder K] [IsStrictOrderedRing K] (tol : K) (results : List (Model K)) :
    Partitions (Multimodel.classify tol results) results.length := by
  have inv : ClassInv _ _ (Multimodel.classify tol results).1 (Multimodel.classify tol results).2 := inv_loop _ results.length
  refine ⟨inv.perm, fun cls h => (inv.inc cls h).1, fun k cls i hk hi => ?_⟩
  exact (inv.look i k).2 ⟨cls, hk, hi⟩

/-! ### After `makeaics` -/

/-- **C79.** Whatever was done with the object before: with at least one result and different uncertainties, `makeaics`
succeeds, and then for each of these uncertainties `get_model(dG, morder=k, cls=None)` runs through all results from
the lowest statistic to the highest, `get_aic` gives the statistic of that model; for any other uncertainty — also one
that was tested before — the queries with `cls=None` raise KeyError. -/
theorem c79_models {as : List ℝ → List ℕ} (h : PeakList.SortsKeys as) (entry : R → D → ℝ) (dgs : List D)
    (hnd : dgs.Nodup) (hd : dgs ≠ []) (st : State R D) (hr : st.results ≠ []) :
    ∃ st', st.makeaics as entry dgs = (st', .ok ()) ∧ st'.results = st.results ∧
      (∀ dg ∈ dgs, ∀ corder,
        Ranks (fun k => st'.getModel dg ⟨corder, some k, .ignore⟩) (List.range st.results.length)
          (fun i => ((st.results[i]?).map (fun m => entry m dg)).getD 0) ∧
        ∀ k (m : ℕ) r, st'.getModel dg ⟨corder, some k, .ignore⟩ = .ok m → st.results[m]? = some r →
          st'.getAic dg ⟨corder, some k, .ignore⟩ = .ok (entry r dg)) ∧
      ∀ dg, dg ∉ dgs → ∀ corder morder, st'.getModel dg ⟨corder, morder, .ignore⟩ = .error .key ∧
        st'.getAic dg ⟨corder, morder, .ignore⟩ = .error .key ∧ st'.getProb dg ⟨corder, morder, .ignore⟩ = .error .key := by
  obtain ⟨h1, h2, h3, h4, h5, -⟩ := makeaics_ok as entry dgs hnd hd st hr
  refine ⟨(st.makeaics as entry dgs).1, Prod.ext rfl h1, h2, ?_, ?_⟩
  · intro dg hdg corder
    obtain ⟨p, hp, ha, hpr, hs⟩ := h4 dg hdg
    have hgm : ∀ k, (st.makeaics as entry dgs).1.getModel dg ⟨corder, some k, .ignore⟩ = fromEnd (as p) k := by
      intro k
      simp only [State.getModel, lookEnd, look, hs, Option.getD_some]
    constructor
    · have := c45_all_models h (st.results.map (fun m => entry m dg)) (by simpa using hr) [] 0
      simp only [Multimodel.getModel, hp, List.length_map, List.getD_eq_getElem?_getD, List.getElem?_map] at this
      simpa only [hgm] using this
    · intro k m r hm hr'
      simp only [State.getAic, hm, look, ha, nth, List.getElem?_map, hr', Option.map_some, Bool.false_eq_true, if_false]
  · intro dg hdg corder morder
    have := (h5 dg hdg).2
    have hgm : (st.makeaics as entry dgs).1.getModel dg ⟨corder, morder, .ignore⟩ = .error .key := by
      simp only [State.getModel, lookEnd, look, this]
    refine ⟨hgm, ?_, ?_⟩
    · simp only [State.getAic, hgm]
    · simp only [State.getProb, hgm]

/-! ### After `makeaics` and `classify` -/

theorem current (as : List ℝ → List ℕ) (entry : R → D → ℝ) (cl : List R → List (List ℕ) × List (ℕ × ℕ))
    (dgs : List D) (hnd : dgs.Nodup) (hd : dgs ≠ []) (st : State R D) (hr : st.results ≠ [])
    (hcl : Partitions (cl st.results) st.results.length) :
    ∃ st1 st2, st.makeaics as entry dgs = (st1, .ok ()) ∧ st1.classify as cl = (st2, .ok ()) ∧ st2.results = st.results ∧
      st2.dgs = dgs ∧ st2.classes = (cl st.results).1 ∧ st2.classesIdx = (cl st.results).2 ∧
      (∀ dg ∈ dgs, ∀ kw,
        st2.getClass dg kw = getClass as (st.results.map (fun m => entry m dg)) (cl st.results).1 (kw.corder.getD 0) ∧
        st2.getModel dg kw = getModel as (st.results.map (fun m => entry m dg)) (cl st.results).1 (kw.corder.getD 0) (kw.morder.getD 0) kw.cls ∧
        st2.getProb dg kw = getProb as (st.results.map (fun m => entry m dg)) (cl st.results).1 (cl st.results).2 (kw.corder.getD 0) (kw.morder.getD 0) kw.cls) ∧
      (∀ dg ∈ dgs, st2.aics dg = some ⟨false, st.results.map (fun m => entry m dg)⟩) ∧
      (∀ dg, dg ∉ dgs → st2.sortedclasses dg = none ∧ st2.classprobs dg = none ∧ st2.sortedclassprobs dg = none ∧
        st2.aicprobs dg = none ∧ st2.sortedprobs dg = none) ∧
      ∀ dg ∈ dgs, ∃ p q, probs (st.results.map (fun m => entry m dg)) = .ok p ∧
        probs (bestStats (st.results.map (fun m => entry m dg)) (cl st.results).1) = .ok q ∧
        st2.aicprobs dg = some p ∧ st2.classprobs dg = some q := by
  obtain ⟨h1, h2, h3, h4, h5, -⟩ := makeaics_ok as entry dgs hnd hd st hr
  generalize hst1 : (st.makeaics as entry dgs).1 = st1 at *
  obtain ⟨hpart, hne, hidx⟩ := hcl
  have hc0 : (cl st.results).1 ≠ [] := by
    intro e
    rw [e] at hpart
    have := hpart.length_eq
    simp at this
    exact hr (List.length_eq_zero_iff.1 this.symm)
  obtain ⟨g1, g2, g3, g4, g5, g6, g7, g8, g9, g10⟩ := classify_ok as cl st1 (fun dg => st.results.map (fun m => entry m dg))
    (by intro dg h; rw [h3] at h; obtain ⟨p, -, ha, -⟩ := h4 dg h; exact ha)
    (by rw [h2]; exact hc0) (by rw [h2]; exact hne)
    (by
      rw [h2]
      intro dg _ cls hcl' i hi
      rw [List.length_map]
      exact List.mem_range.1 (hpart.mem_iff.1 (List.mem_flatten.2 ⟨cls, hcl', hi⟩)))
  rw [h2] at g4 g5 g6
  rw [h3] at g6 g7
  have key : ∀ dg ∈ dgs, ∀ kw,
      (st1.classify as cl).1.getClass dg kw = getClass as (st.results.map (fun m => entry m dg)) (cl st.results).1 (kw.corder.getD 0) ∧
      (st1.classify as cl).1.getModel dg kw = getModel as (st.results.map (fun m => entry m dg)) (cl st.results).1 (kw.corder.getD 0) (kw.morder.getD 0) kw.cls := by
    intro dg hdg kw
    obtain ⟨p, hp, ha, hpr, hs⟩ := h4 dg hdg
    obtain ⟨q, hq, hsc, hcp, hscp⟩ := g6 dg hdg
    have hgc : ∀ kw : Kw, (st1.classify as cl).1.getClass dg kw =
        getClass as (st.results.map (fun m => entry m dg)) (cl st.results).1 (kw.corder.getD 0) := by
      intro kw
      simp only [State.getClass, lookEnd, look, hscp, getClass, hq]
    refine ⟨hgc kw, ?_⟩
    have hlc : ∀ c n, lookClass (st1.classify as cl).1 dg c n = (match (sortedClasses (st.results.map (fun m => entry m dg)) (cl st.results).1)[c]? with
        | none => .error .index
        | some l => fromEnd l n) := by
      intro c n
      simp only [lookClass, lookNth, look, hsc, nth]
      cases (sortedClasses (st.results.map (fun m => entry m dg)) (cl st.results).1)[c]? <;> rfl
    cases hk : kw.cls with
    | ignore => simp only [State.getModel, getModel, hk, lookEnd, look, g10, hs, hp]
    | index c =>
      simp only [State.getModel, getModel, hk, hlc]
      cases (sortedClasses (st.results.map (fun m => entry m dg)) (cl st.results).1)[c]? <;> rfl
    | notGiven =>
      simp only [State.getModel, getModel, hk, hgc]
      cases getClass as (st.results.map (fun m => entry m dg)) (cl st.results).1 (kw.corder.getD 0) with
      | error e => rfl
      | ok c =>
        simp only [hlc]
        cases (sortedClasses (st.results.map (fun m => entry m dg)) (cl st.results).1)[c]? <;> rfl
  refine ⟨st1, (st1.classify as cl).1, Prod.ext hst1 h1, Prod.ext rfl g1, by rw [g2, h2], by rw [g3, h3], g4, g5, ?_, ?_, ?_, ?_⟩
  · intro dg hdg kw
    obtain ⟨p, hp, ha, hpr, hs⟩ := h4 dg hdg
    obtain ⟨q, hq, hsc, hcp, hscp⟩ := g6 dg hdg
    obtain ⟨k1, k2⟩ := key dg hdg kw
    refine ⟨k1, k2, ?_⟩
    simp only [State.getProb, getProb, k2]
    cases getModel as (st.results.map (fun m => entry m dg)) (cl st.results).1 (kw.corder.getD 0) (kw.morder.getD 0) kw.cls with
    | error e => rfl
    | ok m =>
      simp only
      cases kw.cls with
      | ignore =>
        simp only [lookNth, look, g9, hpr, hp, nth]
        cases p[m]? <;> rfl
      | index c =>
        simp only [State.classIdx, g5]
        cases classOf (cl st.results).2 m with
        | none => rfl
        | some c' =>
          simp only [lookNth, look, hcp, hq, nth]
          cases q[c']? <;> rfl
      | notGiven =>
        simp only [State.classIdx, g5]
        cases classOf (cl st.results).2 m with
        | none => rfl
        | some c' =>
          simp only [lookNth, look, hcp, hq, nth]
          cases q[c']? <;> rfl
  · intro dg hdg
    obtain ⟨p, -, ha, -⟩ := h4 dg hdg
    rw [g8]; exact ha
  · intro dg hdg
    obtain ⟨a, b⟩ := h5 dg hdg
    obtain ⟨c, d, e⟩ := g7 dg hdg
    exact ⟨c, d, e, by rw [g9]; exact a, by rw [g10]; exact b⟩
  · intro dg hdg
    obtain ⟨p, hp, ha, hpr, hs⟩ := h4 dg hdg
    obtain ⟨q, hq, hsc, hcp, hscp⟩ := g6 dg hdg
    exact ⟨p, q, hp, hq, by rw [g9]; exact hpr, hcp⟩

/-- **C79.** Whatever was done with the object before: after `makeaics` and then `classify`, for each of the
uncertainties `get_class(dG, corder=k)` runs through the classes by their lowest statistic, `get_model(dG, cls=c,
morder=k)` through the models of class `c`; `get_model(dG)`, which is also `maxprobmodel_byclass(dG)`, is a model of the
lowest statistic of all. For any other uncertainty all queries raise KeyError. -/
theorem c79_classes {as : List ℝ → List ℕ} (h : PeakList.SortsKeys as) (entry : R → D → ℝ)
    (cl : List R → List (List ℕ) × List (ℕ × ℕ)) (dgs : List D) (hnd : dgs.Nodup) (hd : dgs ≠ []) (st : State R D)
    (hr : st.results ≠ []) (hcl : Partitions (cl st.results) st.results.length) :
    ∃ st1 st2, st.makeaics as entry dgs = (st1, .ok ()) ∧ st1.classify as cl = (st2, .ok ()) ∧ st2.results = st.results ∧
      st2.classes = (cl st.results).1 ∧
      (∀ dg ∈ dgs,
        (∃ best : ℕ → ℝ, (∀ (c : ℕ) cls, st2.classes[c]? = some cls → IsBestStat (st.results.map (fun m => entry m dg)) cls (best c)) ∧
          ∀ morder sel, Ranks (fun k => st2.getClass dg ⟨some k, morder, sel⟩) (List.range st2.classes.length) best) ∧
        (∀ (c : ℕ) cls corder, st2.classes[c]? = some cls →
          Ranks (fun k => st2.getModel dg ⟨corder, some k, .index c⟩) cls (fun i => ((st.results[i]?).map (fun m => entry m dg)).getD 0)) ∧
        (∀ corder, Ranks (fun k => st2.getModel dg ⟨corder, some k, .ignore⟩) (List.range st.results.length)
          (fun i => ((st.results[i]?).map (fun m => entry m dg)).getD 0)) ∧
        ∃ m r, st2.getModel dg Kw.none = .ok m ∧ st2.maxprobmodelByclass dg = .ok m ∧ st.results[m]? = some r ∧
          st2.getAic dg Kw.none = .ok (entry r dg) ∧ ∀ r' ∈ st.results, entry r dg ≤ entry r' dg) ∧
      ∀ dg, dg ∉ dgs → (∀ kw, st2.getClass dg kw = .error .key ∧ st2.getModel dg kw = .error .key ∧
        st2.getProb dg kw = .error .key ∧ st2.getAic dg kw = .error .key ∧ ∀ free, st2.getNfree free dg kw = .error .key) ∧
        st2.maxprobmodelByclass dg = .error .key ∧ st2.maxprobmodelBymodel dg = .error .key := by
  obtain ⟨st1, st2, e1, e2, e3, -, e4, -, e6, e7, e8, -⟩ := current as entry cl dgs hnd hd st hr hcl
  obtain ⟨hpart, hne, hidx⟩ := hcl
  have hc0 : (cl st.results).1 ≠ [] := by
    intro e
    rw [e] at hpart
    have := hpart.length_eq
    simp at this
    exact hr (List.length_eq_zero_iff.1 this.symm)
  refine ⟨st1, st2, e1, e2, e3, e4, ?_, ?_⟩
  · intro dg hdg
    have hs0 : st.results.map (fun m => entry m dg) ≠ [] := by simpa using hr
    refine ⟨?_, ?_, ?_, ?_⟩
    · obtain ⟨best, h1, h2⟩ := c45_classes h (st.results.map (fun m => entry m dg)) _ hc0 hne
      refine ⟨best, by rw [e4]; exact h1, fun morder sel => ?_⟩
      rw [e4]
      have : (fun k => st2.getClass dg ⟨some k, morder, sel⟩) = fun k => getClass as (st.results.map (fun m => entry m dg)) (cl st.results).1 k := by
        funext k
        rw [(e6 dg hdg ⟨some k, morder, sel⟩).1]; rfl
      rw [this]; exact h2
    · intro c cls corder hc
      rw [e4] at hc
      have := c45_class_models as (st.results.map (fun m => entry m dg)) (cl st.results).1 (corder.getD 0) c cls hc
      simp only [List.getD_eq_getElem?_getD, List.getElem?_map] at this
      have heq : (fun k => st2.getModel dg ⟨corder, some k, .index c⟩) = fun k => getModel as (st.results.map (fun m => entry m dg)) (cl st.results).1 (corder.getD 0) k (.index c) := by
        funext k
        rw [(e6 dg hdg ⟨corder, some k, .index c⟩).2.1]; rfl
      rw [heq]; exact this
    · intro corder
      have := c45_all_models h (st.results.map (fun m => entry m dg)) hs0 (cl st.results).1 (corder.getD 0)
      simp only [List.getD_eq_getElem?_getD, List.getElem?_map, List.length_map] at this
      have heq : (fun k => st2.getModel dg ⟨corder, some k, .ignore⟩) = fun k => getModel as (st.results.map (fun m => entry m dg)) (cl st.results).1 (corder.getD 0) k .ignore := by
        funext k
        rw [(e6 dg hdg ⟨corder, some k, .ignore⟩).2.1]; rfl
      rw [heq]; exact this
    · obtain ⟨m, c, cls, h1, h2, h3, h4, h5, h6⟩ := c45_default h (st.results.map (fun m => entry m dg)) hs0 (cl st.results).1
        (by rw [List.length_map]; exact hpart) hne
      rw [List.length_map] at h5
      have hgm : st2.getModel dg Kw.none = .ok m := by rw [(e6 dg hdg Kw.none).2.1]; exact h1
      refine ⟨m, st.results[m], hgm, ?_, List.getElem?_eq_getElem h5, ?_, ?_⟩
      · rw [← hgm]; rfl
      · simp only [State.getAic, hgm, look, e7 dg hdg, nth, List.getElem?_map, List.getElem?_eq_getElem h5, Option.map_some,
          Bool.false_eq_true, if_false]
      · intro r' hr'
        obtain ⟨j, hj, rfl⟩ := List.mem_iff_getElem.1 hr'
        have := h6 j (by rw [List.length_map]; exact hj)
        simp only [List.getD_eq_getElem?_getD, List.getElem?_map, List.getElem?_eq_getElem h5, List.getElem?_eq_getElem hj,
          Option.map_some, Option.getD_some] at this
        exact this
  · intro dg hdg
    obtain ⟨a1, a2, a3, a4, a5⟩ := e8 dg hdg
    have hgc : ∀ kw, st2.getClass dg kw = .error .key := by
      intro kw; simp only [State.getClass, lookEnd, look, a3]
    have hgm : ∀ kw, st2.getModel dg kw = .error .key := by
      intro kw
      simp only [State.getModel]
      cases kw.cls with
      | ignore => simp only [lookEnd, look, a5]
      | index c => simp only [lookClass, lookNth, look, a1]
      | notGiven => simp only [hgc]
    refine ⟨fun kw => ⟨hgc kw, hgm kw, by simp only [State.getProb, hgm], by simp only [State.getAic, hgm],
      fun free => by simp only [State.getNfree, hgm]⟩, ?_, ?_⟩
    · simp only [State.maxprobmodelByclass, lookEnd, look, a3]
    · simp only [State.maxprobmodelBymodel, lookEnd, look, a5]

/-- **C79.** In every state: `maxprobmodel_byclass(dG)` is `get_model(dG)`, `maxprobmodel_bymodel(dG)` is
`get_model(dG, cls=None)`. -/
theorem c79_maxprobmodel (st : State R D) (dg : D) :
    st.maxprobmodelByclass dg = st.getModel dg Kw.none ∧
    st.maxprobmodelBymodel dg = st.getModel dg ⟨none, none, .ignore⟩ := ⟨rfl, rfl⟩

/-! ### The uncertainty at which a model is most probable -/

theorem argmaxLoop_spec (l : List ℝ) : ∀ (pre : List ℝ) (best : ℕ) (m : ℝ), pre[best]? = some m →
    (∀ (j : ℕ) w, j < best → pre[j]? = some w → w < m) → (∀ w ∈ pre, w ≤ m) →
    ∃ M, (pre ++ l)[argmaxLoop l pre.length best m]? = some M ∧
      (∀ (j : ℕ) w, j < argmaxLoop l pre.length best m → (pre ++ l)[j]? = some w → w < M) ∧ ∀ w ∈ pre ++ l, w ≤ M := by
  induction l with
  | nil =>
    intro pre best m h1 h2 h3
    simp only [argmaxLoop, List.append_nil]
    exact ⟨m, h1, h2, h3⟩
  | cons v l ih =>
    intro pre best m h1 h2 h3
    have hlen : pre.length + 1 = (pre ++ [v]).length := by simp
    have happ : pre ++ v :: l = (pre ++ [v]) ++ l := by simp
    have hb : best < pre.length := (List.getElem?_eq_some_iff.1 h1).1
    simp only [argmaxLoop]
    rw [hlen, happ]
    by_cases hv : m < v
    · rw [if_pos hv]
      apply ih
      · simp
      · intro j w hj hw
        rw [List.getElem?_append_left hj] at hw
        exact lt_of_le_of_lt (h3 w (List.mem_of_getElem? hw)) hv
      · intro w hw
        rcases List.mem_append.1 hw with hw | hw
        · exact le_of_lt (lt_of_le_of_lt (h3 w hw) hv)
        · simp at hw; exact hw.le
    · rw [if_neg hv]
      apply ih
      · rw [List.getElem?_append_left hb]; exact h1
      · intro j w hj hw
        rw [List.getElem?_append_left (by omega)] at hw
        exact h2 j w hj hw
      · intro w hw
        rcases List.mem_append.1 hw with hw | hw
        · exact h3 w hw
        · simp at hw; rw [hw]; exact not_lt.1 hv

theorem maxdG_spec (F : D → Res ℝ) (f : D → ℝ) (dgs : List D) (hd : dgs ≠ []) (h : ∀ dg ∈ dgs, F dg = .ok (f dg)) :
    ∃ d, maxdG F dgs = .ok d ∧ FirstBest dgs f d := by
  simp only [maxdG, mapM_ok F f dgs h]
  cases hm : dgs.map f with
  | nil => simp at hm; exact absurd hm hd
  | cons v l =>
    simp only [argmax]
    obtain ⟨M, h1, h2, h3⟩ := argmaxLoop_spec l [v] 0 v rfl (by omega) (by simp)
    simp only [List.length_singleton, List.singleton_append] at h1 h2 h3
    generalize argmaxLoop l 1 0 v = i at h1 h2
    rw [← hm] at h1 h2 h3
    rw [List.getElem?_map] at h1
    cases hi : dgs[i]? with
    | none => rw [hi] at h1; simp at h1
    | some d =>
      rw [hi] at h1
      simp only [Option.map_some, Option.some.injEq] at h1
      subst h1
      refine ⟨d, by simp only [nth, hi], dgs.take i, dgs.drop (i + 1), ?_, ?_, ?_⟩
      · obtain ⟨hlt, he⟩ := List.getElem?_eq_some_iff.1 hi
        rw [← he, ← List.drop_eq_getElem_cons hlt, List.take_append_drop]
      · intro d' hd'
        obtain ⟨j, hj, he⟩ := List.mem_iff_getElem.1 hd'
        rw [List.getElem_take] at he
        rw [List.length_take] at hj
        refine h2 j (f d') (by omega) ?_
        rw [List.getElem?_map, List.getElem?_eq_getElem (by omega), he]; rfl
      · intro d' hd'
        exact h3 _ (List.mem_map.2 ⟨d', List.mem_of_mem_drop hd', rfl⟩)

/-- **C79.** After `makeaics` and `classify`: `maxprobdG_bymodel(m)` is the first of the uncertainties at which the Akaike
probability of model `m` among all models is largest; `maxprobdG_byclass(m)` the first at which the probability of the
class of `m`, as `get_prob(dG, cls=c)` gives it, is largest. -/
theorem c79_maxprobdG (as : List ℝ → List ℕ) (entry : R → D → ℝ) (cl : List R → List (List ℕ) × List (ℕ × ℕ))
    (dgs : List D) (hnd : dgs.Nodup) (hd : dgs ≠ []) (st : State R D) (hr : st.results ≠ [])
    (hcl : Partitions (cl st.results) st.results.length) :
    ∃ st1 st2, st.makeaics as entry dgs = (st1, .ok ()) ∧ st1.classify as cl = (st2, .ok ()) ∧
      ∀ m < st.results.length,
        (∃ (f : D → ℝ) (d : D), (∀ dg ∈ dgs, ∃ p, Evaluator.akaikeProbs (st.results.map (fun r => entry r dg)) = some p ∧ p[m]? = some (f dg)) ∧
          st2.maxprobdGBymodel m = .ok d ∧ FirstBest dgs f d) ∧
        ∃ (c : ℕ) (cls : List ℕ) (f : D → ℝ) (d : D), st2.classes[c]? = some cls ∧ m ∈ cls ∧
          (∀ dg ∈ dgs, st2.getProb dg ⟨none, none, .index c⟩ = .ok (f dg)) ∧
          st2.maxprobdGByclass m = .ok d ∧ FirstBest dgs f d := by
  obtain ⟨st1, st2, e1, e2, e3, e4, e5, e6, e7, e8, -, e9⟩ := current as entry cl dgs hnd hd st hr hcl
  obtain ⟨hpart, hne, hidx⟩ := hcl
  refine ⟨st1, st2, e1, e2, fun m hm => ⟨?_, ?_⟩⟩
  · have : ∀ dg, ∃ v, dg ∈ dgs → ∃ p, Evaluator.akaikeProbs (st.results.map (fun r => entry r dg)) = some p ∧ p[m]? = some v ∧
        lookNth st2.aicprobs dg m = .ok v := by
      intro dg
      by_cases hdg : dg ∈ dgs
      · obtain ⟨p, q, hp, -, hpr, -⟩ := e9 dg hdg
        obtain ⟨p', hp', hlen, -⟩ := Evaluator.c13_probs (st.results.map (fun r => entry r dg)) (by simpa using hr)
        have : p = p' := by
          simp only [probs, hp'] at hp
          cases hp; rfl
        subst this
        have hlt : m < p.length := by rw [hlen, List.length_map]; exact hm
        exact ⟨p[m], fun _ => ⟨p, hp', List.getElem?_eq_getElem hlt, by
          simp only [lookNth, look, hpr, nth, List.getElem?_eq_getElem hlt]⟩⟩
      · exact ⟨0, fun h' => absurd h' hdg⟩
    choose f hf using this
    obtain ⟨d, hd1, hd2⟩ := maxdG_spec (fun dg => lookNth st2.aicprobs dg m) f dgs hd (fun dg hdg => by
      obtain ⟨p, -, -, h'⟩ := hf dg hdg; exact h')
    refine ⟨f, d, fun dg hdg => ?_, ?_, hd2⟩
    · obtain ⟨p, h1, h2, -⟩ := hf dg hdg; exact ⟨p, h1, h2⟩
    · simp only [State.maxprobdGBymodel, e4]; exact hd1
  · obtain ⟨cls, hcls, hmc⟩ := List.mem_flatten.1 (hpart.mem_iff.2 (List.mem_range.2 hm))
    obtain ⟨c, hc, rfl⟩ := List.mem_iff_getElem.1 hcls
    have hcc := List.getElem?_eq_getElem hc
    have hcm := hidx c _ m hcc hmc
    have : ∀ dg, ∃ v, dg ∈ dgs → st2.getProb dg ⟨none, none, .index c⟩ = .ok v ∧ lookNth st2.classprobs dg c = .ok v := by
      intro dg
      by_cases hdg : dg ∈ dgs
      · obtain ⟨p, q, -, hq, -, hcp⟩ := e9 dg hdg
        have hb : bestStats (st.results.map (fun r => entry r dg)) (cl st.results).1 ≠ [] := by
          intro e
          have := congrArg List.length e
          simp [bestStats, sortedClasses] at this
          rw [this] at hc; simp at hc
        obtain ⟨q', hq', hlen, -⟩ := Evaluator.c13_probs _ hb
        have : q = q' := by
          simp only [probs, hq'] at hq
          cases hq; rfl
        subst this
        have hlt : c < q.length := by
          rw [hlen]
          simpa [bestStats, sortedClasses] using hc
        have hv : lookNth st2.classprobs dg c = .ok q[c] := by
          simp only [lookNth, look, hcp, nth, List.getElem?_eq_getElem hlt]
        refine ⟨q[c], fun _ => ⟨?_, hv⟩⟩
        have hr2 := c45_class_models as (st.results.map (fun r => entry r dg)) (cl st.results).1 0 c _ hcc
        obtain ⟨m', hm', hgm, -⟩ := hr2.best (hne _ (List.getElem_mem hc))
        have hgm' : st2.getModel dg ⟨none, none, .index c⟩ = .ok m' := by
          rw [(e7 dg hdg ⟨none, none, .index c⟩).2.1]; exact hgm
        simp only [State.getProb, hgm', State.classIdx, e6, hidx c _ m' hcc hm', hv]
      · exact ⟨0, fun h' => absurd h' hdg⟩
    choose f hf using this
    obtain ⟨d, hd1, hd2⟩ := maxdG_spec (fun dg => lookNth st2.classprobs dg c) f dgs hd (fun dg hdg => (hf dg hdg).2)
    refine ⟨c, (cl st.results).1[c], f, d, by rw [e5]; exact hcc, hmc, fun dg hdg => (hf dg hdg).1, ?_, hd2⟩
    simp only [State.maxprobdGByclass, State.classIdx, e6, hcm, e4]; exact hd1

/-! ### `get` -/

theorem getLoop_iff (one : String → Res (Val D)) (args : List String) (acc : List (Val D)) :
    ∀ out, getLoop one args acc = .ok out ↔ ∃ vs, out = acc ++ vs ∧ List.Forall₂ (fun a v => one a = .ok v) args vs := by
  induction args generalizing acc with
  | nil =>
    intro out
    simp only [getLoop, List.forall₂_nil_left_iff, Except.ok.injEq]
    constructor
    · rintro rfl; exact ⟨[], by simp, rfl⟩
    · rintro ⟨vs, rfl, rfl⟩; simp
  | cons a l ih =>
    intro out
    simp only [getLoop]
    cases h : one a with
    | error e =>
      constructor
      · intro h'; cases h'
      · rintro ⟨vs, -, hf⟩
        cases hf with
        | cons h1 _ => rw [h] at h1; cases h1
    | ok v =>
      simp only
      rw [ih]
      constructor
      · rintro ⟨vs, rfl, hf⟩
        exact ⟨v :: vs, by simp, .cons h hf⟩
      · rintro ⟨vs, rfl, hf⟩
        cases hf with
        | cons h1 h2 =>
          rw [h] at h1
          cases h1
          exact ⟨_, by simp, h2⟩

/-- The value of a name in the tuple of `get`, in the words of its documentation. -/
inductive Answers (free : R → Free) (st : State R D) (dg : D) (kw : Kw) : String → Val D → Prop
  | aic (v : ℝ) : st.getAic dg kw = .ok v → Answers free st dg kw "aic" (.number v)
  | cls (c : ℕ) : st.getClass dg kw = .ok c → Answers free st dg kw "class" (.index c)
  | dg : kw.given = false → Answers free st dg kw "dg" (.dg dg)
  | model (m : ℕ) : st.getModel dg kw = .ok m → Answers free st dg kw "model" (.index m)
  | nfree (n : ℕ) : st.getNfree free dg kw = .ok n → Answers free st dg kw "nfree" (.index n)
  | prob (v : ℝ) : st.getProb dg kw = .ok v → Answers free st dg kw "prob" (.number v)

theorem getOne_iff (free : R → Free) (st : State R D) (dg : D) (kw : Kw) (a : String) (v : Val D) :
    st.getOne free dg kw a = .ok v ↔ Answers free st dg kw a v := by
  have mapok : ∀ {α β : Type} (x : Res α) (g : α → β) (b : β), x.map g = .ok b → ∃ a, x = .ok a ∧ b = g a := by
    intro α β x g b h
    cases x with
    | error e => cases h
    | ok a => cases h; exact ⟨a, rfl, rfl⟩
  constructor
  · intro h
    unfold State.getOne at h
    split at h
    · rename_i e; subst e; obtain ⟨a, h1, rfl⟩ := mapok _ _ _ h; exact .aic a h1
    split at h
    · rename_i e; subst e; obtain ⟨a, h1, rfl⟩ := mapok _ _ _ h; exact .cls a h1
    split at h
    · rename_i e; subst e
      split at h
      · cases h
      · rename_i hg
        cases h
        exact .dg (by simpa using hg)
    split at h
    · rename_i e; subst e; obtain ⟨a, h1, rfl⟩ := mapok _ _ _ h; exact .model a h1
    split at h
    · rename_i e; subst e; obtain ⟨a, h1, rfl⟩ := mapok _ _ _ h; exact .nfree a h1
    split at h
    · rename_i e; subst e; obtain ⟨a, h1, rfl⟩ := mapok _ _ _ h; exact .prob a h1
    · cases h
  · intro h
    cases h with
    | aic v h1 => simp [State.getOne, h1, Except.map]
    | cls v h1 => simp [State.getOne, h1, Except.map]
    | dg h1 => simp [State.getOne, h1]
    | model v h1 => simp [State.getOne, h1, Except.map]
    | nfree v h1 => simp [State.getOne, h1, Except.map]
    | prob v h1 => simp [State.getOne, h1, Except.map]

/-- **C79.** In every state, `get(dG, *names, **kwds)` gives, in the order of the names, exactly what the separate
queries give with the same keywords; if one of them raises, so does `get`. -/
theorem c79_get (free : R → Free) (st : State R D) (dg : D) (names : List String) (kw : Kw) (vs : List (Val D)) :
    st.get free dg names kw = .ok vs ↔ List.Forall₂ (Answers free st dg kw) names vs := by
  unfold State.get
  rw [getLoop_iff]
  constructor
  · rintro ⟨vs', rfl, hf⟩
    exact hf.imp (fun a v h => (getOne_iff free st dg kw a v).1 h)
  · intro hf
    exact ⟨vs, rfl, hf.imp (fun a v h => (getOne_iff free st dg kw a v).2 h)⟩

/-- **C79, finding.** The name `"dG"` that the documentation of `get` lists is not known (KeyError); `"dg"` is, but not
together with any keyword (TypeError). -/
theorem c79_get_dG (free : R → Free) (st : State R D) (dg : D) (names : List String) (kw : Kw) :
    st.get free dg ("dG" :: names) kw = .error .key ∧
    (kw.given = true → st.get free dg ("dg" :: names) kw = .error .type) ∧
    st.get free dg ["dg"] Kw.none = .ok [.dg dg] := by
  refine ⟨by simp [State.get, getLoop, State.getOne], fun h => by simp [State.get, getLoop, State.getOne, h], ?_⟩
  simp [State.get, getLoop, State.getOne, Kw.given, Kw.none]

/-- **C79, finding.** `get(dG, "model", "class", cls=c)`: the class that is given is the best one of all, not the class
`c` of the model that stands beside it. -/
theorem c79_class_not_of_model {as : List ℝ → List ℕ} (entry : R → D → ℝ)
    (cl : List R → List (List ℕ) × List (ℕ × ℕ)) (dgs : List D) (hnd : dgs.Nodup) (st : State R D)
    (hr : st.results ≠ []) (hcl : Partitions (cl st.results) st.results.length) (free : R → Free) (dg : D) (hdg : dg ∈ dgs) :
    ∃ st1 st2, st.makeaics as entry dgs = (st1, .ok ()) ∧ st1.classify as cl = (st2, .ok ()) ∧
      ∀ (b c : ℕ) cls, st2.getClass dg Kw.none = .ok b → st2.classes[c]? = some cls →
        ∃ m ∈ cls, st2.get free dg ["model", "class"] ⟨none, none, .index c⟩ = .ok [.index m, .index b] := by
  obtain ⟨st1, st2, e1, e2, e3, e4, e5, e6, e7, e8, -, e9⟩ := current as entry cl dgs hnd (by rintro rfl; simp at hdg) st hr hcl
  refine ⟨st1, st2, e1, e2, ?_⟩
  intro b c cls hb hc
  rw [e5] at hc
  obtain ⟨m, hm, hgm, -⟩ := (c45_class_models as (st.results.map (fun r => entry r dg)) (cl st.results).1 0 c cls hc).best
    (hcl.2.1 cls (List.mem_of_getElem? hc))
  have hgm' : st2.getModel dg ⟨none, none, .index c⟩ = .ok m := by
    rw [(e7 dg hdg ⟨none, none, .index c⟩).2.1]; exact hgm
  have hb' : st2.getClass dg ⟨none, none, .index c⟩ = .ok b := hb
  refine ⟨m, hm, ?_⟩
  rw [c79_get]
  exact .cons (.model m hgm') (.cons (.cls b hb') .nil)

/-! ### What becomes stale -/

/-- **C79, finding.** `makeaics` does not touch the classes: the queries by class answer as before, also for
uncertainties that are no longer tested, and raise KeyError for new ones, until `classify` is called again. -/
theorem c79_classes_stale (as : List ℝ → List ℕ) (entry : R → D → ℝ) (dgs : List D) (hnd : dgs.Nodup) (hd : dgs ≠ [])
    (st : State R D) (hr : st.results ≠ []) (dg : D) :
    ∃ st', st.makeaics as entry dgs = (st', .ok ()) ∧
      (∀ kw, st'.getClass dg kw = st.getClass dg kw) ∧
      (∀ co mo, st'.getModel dg ⟨co, mo, .notGiven⟩ = st.getModel dg ⟨co, mo, .notGiven⟩ ∧
        st'.getProb dg ⟨co, mo, .notGiven⟩ = st.getProb dg ⟨co, mo, .notGiven⟩) ∧
      st'.maxprobmodelByclass dg = st.maxprobmodelByclass dg := by
  obtain ⟨h1, h2, h3, h4, h5, h6, h7, h8, h9, h10⟩ := makeaics_ok as entry dgs hnd hd st hr
  refine ⟨(st.makeaics as entry dgs).1, Prod.ext rfl h1, ?_⟩
  generalize (st.makeaics as entry dgs).1 = st' at *
  have hgc : ∀ kw, st'.getClass dg kw = st.getClass dg kw := by
    intro kw; simp only [State.getClass, h10]
  have hlc : ∀ c n, lookClass st' dg c n = lookClass st dg c n := by
    intro c n; simp only [lookClass, h8]
  have hgm : ∀ co mo, st'.getModel dg ⟨co, mo, .notGiven⟩ = st.getModel dg ⟨co, mo, .notGiven⟩ := by
    intro co mo; simp only [State.getModel, hgc, hlc]
  refine ⟨hgc, fun co mo => ⟨hgm co mo, ?_⟩, ?_⟩
  · simp only [State.getProb, hgm, State.classIdx, h7, h9]
  · simp only [State.maxprobmodelByclass, h10, hlc]

/-- **C79, finding.** After other results were put into the object (`run`), the queries go on answering for the old ones,
but `get_nfree` reads the new ones at the rank of the old: it gives the number of free parameters of another model. -/
theorem c79_results_stale (free : R → Free) (st : State R D) (others : List R) (dg : D) (kw : Kw) :
    ({ st with results := others } : State R D).getModel dg kw = st.getModel dg kw ∧
    ({ st with results := others } : State R D).getProb dg kw = st.getProb dg kw ∧
    ({ st with results := others } : State R D).getAic dg kw = st.getAic dg kw ∧
    ∀ (m : ℕ) r b, st.getModel dg kw = .ok m → others[m]? = some r → (free r).baseline = some b →
      ({ st with results := others } : State R D).getNfree free dg kw = .ok ((free r).peaks + b) := by
  have hgm : ({ st with results := others } : State R D).getModel dg kw = st.getModel dg kw := rfl
  refine ⟨hgm, rfl, rfl, ?_⟩
  intro m r b h1 h2 h3
  simp only [State.getNfree, hgm, h1, nth, h2, h3]

/-- **C79, finding.** `get_nfree` raises AttributeError for a model without baseline, whatever the rest. -/
theorem c79_nfree_no_baseline (free : R → Free) (st : State R D) (dg : D) (kw : Kw) (m : ℕ) (r : R)
    (h1 : st.getModel dg kw = .ok m) (h2 : st.results[m]? = some r) :
    st.getNfree free dg kw = match (free r).baseline with
      | none => .error .attribute
      | some b => .ok ((free r).peaks + b) := by
  simp only [State.getNfree, h1, nth, h2]
  cases (free r).baseline <;> rfl

/-- **C79, finding.** `loadaics` never succeeds; it leaves numbers where evaluators should be: afterwards `get_aic` raises
AttributeError for every model whose number the file holds, while `get_model` answers as before. -/
theorem c79_loadaics (file : D → Option (List ℝ)) (st : State R D) :
    ∃ st' e, st.loadaics file = (st', .error e) ∧ (∀ dg kw, st'.getModel dg kw = st.getModel dg kw) ∧
      ∀ dg kw (m : ℕ) l, st.getModel dg kw = .ok m → file dg = some l → m < l.length →
        st'.getAic dg kw = .error .attribute := by
  refine ⟨_, _, rfl, fun _ _ => rfl, ?_⟩
  intro dg kw m l h1 h2 h3
  have hgm : (st.loadaics file).1.getModel dg kw = .ok m := h1
  simp only [State.loadaics] at hgm
  simp only [State.getAic, hgm, look, h2, Option.map_some, nth, List.getElem?_eq_getElem h3, if_true]

/-! ### Instances -/

/-- Instance: the classes of C44 are such a partition. -/
example : Partitions (classify (1 / 10 : ℚ) [exModel 0 [10, 0], exModel 0 [20, 0], exModel 0 [10, 1]]) 3 := by
  have : classify (1 / 10 : ℚ) [exModel 0 [10, 0], exModel 0 [20, 0], exModel 0 [10, 1]] = ([[0, 2], [1]], [(2, 0), (1, 1), (0, 0)]) := by
    decide +kernel
  rw [this]
  refine ⟨by decide, by decide, ?_⟩
  intro c cls i hc hi
  match c with
  | 0 => simp at hc; subst hc; simp at hi; rcases hi with rfl | rfl <;> decide
  | 1 => simp at hc; subst hc; simp at hi; subst hi; decide
  | c + 2 => simp at hc

/-- Three results with 1, 2 and 3 free parameters of the peaks, one of the baseline. -/
def exState : State ℕ ℕ := { (State.new : State ℕ ℕ) with results := [1, 2, 3] }

/-- Classes for them. -/
def exCl (rs : List ℕ) : List (List ℕ) × List (ℕ × ℕ) := if rs = [1, 2, 3] then ([[0, 2], [1]], [(2, 0), (1, 1), (0, 0)]) else ([], [])

theorem exCl_partitions : Partitions (exCl exState.results) exState.results.length := by
  show Partitions ([[0, 2], [1]], [(2, 0), (1, 1), (0, 0)]) 3
  refine ⟨by decide, by decide, ?_⟩
  intro c cls i hc hi
  match c with
  | 0 => simp at hc; subst hc; simp at hi; rcases hi with rfl | rfl <;> decide
  | 1 => simp at hc; subst hc; simp at hi; subst hi; decide
  | c + 2 => simp at hc

/-- Instance of `c79_classes`, `c79_maxprobdG`: two uncertainties, three results; the best model at uncertainty `7` is the
one of the lowest statistic. -/
example {as : List ℝ → List ℕ} (h : PeakList.SortsKeys as) :
    ∃ st1 st2, exState.makeaics as (fun (r dg : ℕ) => ((r : ℝ) - 2) ^ 2 * dg) [5, 7] = (st1, .ok ()) ∧ st1.classify as exCl = (st2, .ok ()) ∧
      st2.getModel 7 Kw.none = .ok 1 ∧ st2.getModel 6 Kw.none = .error .key := by
  obtain ⟨st1, st2, e1, e2, -, -, h1, h2⟩ := c79_classes h (fun (r dg : ℕ) => ((r : ℝ) - 2) ^ 2 * dg) exCl [5, 7] (by decide) (by decide)
    exState (by decide) exCl_partitions
  refine ⟨st1, st2, e1, e2, ?_, ((h2 6 (by decide)).1 Kw.none).2.1⟩
  obtain ⟨-, -, -, m, r, hm, -, hr, -, hle⟩ := h1 7 (by decide)
  have h2' := hle 2 (by decide)
  rw [hm]
  match m, hr with
  | 0, hr => simp [exState] at hr; subst hr; norm_num at h2'
  | 1, _ => rfl
  | 2, hr => simp [exState] at hr; subst hr; norm_num at h2'
  | m + 3, hr => simp [exState] at hr

end Verif.Multimodel
