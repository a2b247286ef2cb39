import Verif.Shared.Findings
import Verif.ModelCluster.Fit

/-!
# Instances for C112
-/

namespace Verif.Parts.Shared

open Verif.Py Verif.PeakList Verif.Parts.ModelCluster Verif.Parts.Extract

/-- Bumps on levels; the optimiser halves every parameter; the best model has positions of sum `q` (lower is better). -/
def bumpWorld (q : ℚ) : World ℚ where
  env _ := { exEnv with quality := fun ps _ => ⟨"AIC", false, some |(ps.map pos).sum - q|, none⟩, estimate := .ok (some (bump 4 2 true)) }
  pruneEnv c := ⟨fun _ => exEnv, fun out m _ => ⟨"AIC", false, some (((out ++ m).map pos).sum), none⟩⟩
  pick _ := 0
  as := mergeAs
  val p x := bumpAt p.pars x
  sc p _ s := .ok (p.pars.set 1 (s * p.pars.getD 1 0))
  eqv _ _ := true
  minpoints _ _ := 1
  func := bumpOwner

/-- Abscissae are array 0, ordinates array 1, uncertainties array 2. -/
def bumpArr : ℕ → List ℚ
  | 0 => [0, 1, 2, 3, 4, 5]
  | 1 => [1, 5, 6, 1, 1, 1]
  | _ => [1, 1, 1, 1, 1, 1]

/-- Nothing yet but the arrays. -/
def bare : Store ℚ := ⟨bumpArr, [], []⟩

/-- One baseline; cluster 0 on the first three points, cluster 1 on the others, with the same baseline; a copy of cluster 0 (2). -/
def setting : List (Op ℚ) :=
  [.baseline (level 1), .make [bump 1 4 true] (some 0) 0 1 2 (some ⟨none, 3⟩) 0 [2], .make [] (some 0) 0 1 2 (some ⟨some 3, 6⟩) 0 [2], .copy 0]

/-- The two neighbours are joined (3), peaks are added to cluster 0 and to the copy. -/
def later : List (Op ℚ) := [.join 0 1, .add 0 [bump 2 1 true], .slice 1 ⟨some 2, 6⟩, .add 2 [bump 4 3 true], .delete 3 0]

/-- Owners of baselines, slices, never_fit, positions of the peaks. -/
def sketch (o : Obj ℚ) : Option ℕ × List ℕ × List ℚ :=
  (o.baseline, [(o.slice.getD ⟨none, 0⟩).start.getD 0, (o.slice.getD ⟨none, 0⟩).stop, if o.neverFit then 1 else 0], posOf o.model)

def W1 : World ℚ := bumpWorld 100

def S1 : Store ℚ := run W1 bare setting

theorem setting_shown : S1.obj.map sketch = [(some 0, [0, 3, 0], [1]), (some 0, [3, 6, 1], []), (some 1, [0, 3, 0], [1])] ∧ S1.base.length = 2 := by
  refine ⟨by decide +kernel, by decide +kernel⟩

theorem later_shown : (run W1 S1 later).obj.map sketch =
      [(some 0, [0, 3, 0], [1, 2]), (some 0, [2, 6, 0], []), (some 1, [0, 3, 0], [1, 4]), (some 0, [0, 6, 0], [])] ∧
    (run W1 S1 later).arr 1 = [1, 6, 7, 5, 4, 4] ∧ (run W1 S1 later).arr 0 = bumpArr 0 := by
  refine ⟨by decide +kernel, by decide +kernel, by decide +kernel⟩

theorem S1_sound : Sound S1 := sound_run W1 setting bare (by intro o ho; simp [bare] at ho)

/-- Instance of `c112_views`. -/
example (o : Obj ℚ) (ho : o ∈ (run W1 bare (setting ++ later)).obj) :=
  c112_views W1 bare rfl (setting ++ later) o ho

theorem adds_pointwise (i : ℕ) (peaks : List (Part ℚ)) (h : Op.add i peaks ∈ later) : PointwiseBy (fun p x => bumpAt p.pars x) peaks := by
  apply bump_pointwise
  intro p hp
  simp only [later, List.mem_cons, reduceCtorEq, Op.add.injEq, List.not_mem_nil, or_false, false_or] at h
  rcases h with ⟨-, rfl⟩ | ⟨-, rfl⟩ <;>
    (simp only [List.mem_cons, List.not_mem_nil, or_false] at hp; exact ⟨2, by rw [hp]; rfl⟩)

theorem S1_refs : S1.obj.map (fun o => [o.r, o.y, o.e]) = [[0, 1, 2], [0, 1, 2], [0, 1, 2]] := by decide +kernel

theorem S1_belongs : Belongs 1 0 S1 later := by
  have h : ∀ o ∈ S1.obj, [o.r, o.y, o.e] = [0, 1, 2] := by
    intro o ho
    have : [o.r, o.y, o.e] ∈ S1.obj.map (fun o => [o.r, o.y, o.e]) := List.mem_map.2 ⟨o, ho, rfl⟩
    rw [S1_refs] at this
    simpa using this
  refine ⟨fun o ho _ => ?_, fun o ho => ?_, fun m bl r y e s me f hm => ?_⟩
  · have := h o ho; simp at this; exact this.1
  · have := h o ho; simp at this; omega
  · simp [later] at hm

/-- Instance of `c112_data`: two external peaks, given to two clusters, are in the ordinates of all (see `later_shown`). -/
example := ((c112_data W1 S1 later 1).2 (adds_pointwise) 0 S1_belongs (by decide +kernel)).2

example : (gains W1 S1 later 1).map pos = [2, 4] := by decide +kernel

theorem S1_get (i : ℕ) (h : i < 3) : ∃ o, S1.obj[i]? = some o ∧ sketch o = [(some 0, [0, 3, 0], [1]), (some 0, [3, 6, 1], []), (some 1, [0, 3, 0], [1])].getD i (none, [], []) ∧
    [o.r, o.y, o.e] = [0, 1, 2] := by
  have hl : S1.obj.length = 3 := by
    have := congrArg List.length setting_shown.1
    simpa using this
  have h1 := setting_shown.1
  have h2 := S1_refs
  obtain ⟨a, b, c, habc⟩ : ∃ a b c, S1.obj = [a, b, c] := by
    match hS : S1.obj, hl with
    | [a, b, c], _ => exact ⟨a, b, c, rfl⟩
  rw [habc] at h1 h2 ⊢
  simp only [List.map_cons, List.map_nil, List.cons.injEq, and_true] at h1 h2
  match i, h with
  | 0, _ => exact ⟨a, rfl, h1.1, by simpa using h2.1⟩
  | 1, _ => exact ⟨b, rfl, h1.2.1, by simpa using h2.2.1⟩
  | 2, _ => exact ⟨c, rfl, h1.2.2, by simpa using h2.2.2⟩

/-- Instance of `c112_others` and `c112_copy`: the copy has a baseline of its own, and is untouched by what is done with the others, a fit with
baseline included. -/
example : ∃ c, S1.obj[2]? = some c ∧ Own S1 2 c.baseline ∧
    (∀ op ∈ [Op.fit 0 { fitbaseline := true }, .join 0 1, .add 1 [bump 2 1 true], .prune 1, .reduce 0 1 (1/2) false], Spares 2 c.baseline op) := by
  obtain ⟨a, ha, a2, -⟩ := S1_get 0 (by omega)
  obtain ⟨b, hb, b2, -⟩ := S1_get 1 (by omega)
  obtain ⟨c, hc, c2, -⟩ := S1_get 2 (by omega)
  have ha2 : a.baseline = some 0 := congrArg Prod.fst a2
  have hb2 : b.baseline = some 0 := congrArg Prod.fst b2
  have hc2 : c.baseline = some 1 := congrArg Prod.fst c2
  have hl : S1.obj.length = 3 := by
    have := congrArg List.length setting_shown.1
    simpa using this
  refine ⟨c, hc, fun q hq => ?_, fun op hop => ?_⟩
  · rw [hc2] at hq
    simp only [Option.some.injEq] at hq
    subst hq
    refine ⟨by rw [setting_shown.2]; omega, fun k ok hk hok => ?_⟩
    have hk3 : k < 3 := by
      by_contra hn
      rw [List.getElem?_eq_none (by omega)] at hok
      simp at hok
    have : k = 0 ∨ k = 1 := by omega
    rcases this with rfl | rfl
    · rw [ha] at hok
      simp only [Option.some.injEq] at hok
      rw [← hok, ha2]; simp
    · rw [hb] at hok
      simp only [Option.some.injEq] at hok
      rw [← hok, hb2]; simp
  · simp only [List.mem_cons, List.not_mem_nil, or_false] at hop
    rcases hop with rfl | rfl | rfl | rfl | rfl <;> exact ⟨by simp [Op.target], by simp, by simp⟩

/-- Instance of `c112_copy`: a cluster is copied. -/
example : ∃ o c, S1.obj[0]? = some o ∧ (step W1 S1 (.copy 0)).2.obj = S1.obj ++ [c] := by
  obtain ⟨o, ho, o2, o3⟩ := S1_get 0 (by omega)
  have hlen : (step W1 S1 (.copy 0)).2.obj.length = 4 := by decide +kernel
  have hpre : ∃ l, (step W1 S1 (.copy 0)).2.obj = S1.obj ++ l := by
    show ∃ l, (step W1 S1 (.copy 0)).2.obj = S1.obj ++ l
    unfold step
    simp only [ho]
    unfold construct addObj
    repeat' split
    all_goals first | exact ⟨[], (List.append_nil _).symm⟩ | exact ⟨_, rfl⟩
  obtain ⟨l, hl⟩ := hpre
  have hl3 : S1.obj.length = 3 := by
    have := congrArg List.length setting_shown.1
    simpa using this
  rw [hl, List.length_append, hl3] at hlen
  match l, hlen with
  | [c], _ => exact ⟨o, c, ho, hl⟩

/-- Instance of `c112_original`: the original, when the copy is worked on. -/
example : ∃ o c, S1.obj[0]? = some o ∧ S1.obj[2]? = some c ∧ (∀ b, o.baseline = some b → b < S1.base.length ∧ c.baseline ≠ some b) ∧
    ∀ op ∈ [Op.fit 2 { fitbaseline := true }, .add 2 [bump 2 1 true], .slice 2 ⟨none, 6⟩], op.target = some 2 := by
  obtain ⟨a, ha, a2, -⟩ := S1_get 0 (by omega)
  obtain ⟨c, hc, c2, -⟩ := S1_get 2 (by omega)
  have ha2 : a.baseline = some 0 := congrArg Prod.fst a2
  have hc2 : c.baseline = some 1 := congrArg Prod.fst c2
  refine ⟨a, c, ha, hc, fun b hb => ?_, fun op hop => ?_⟩
  · rw [ha2] at hb
    simp only [Option.some.injEq] at hb
    subst hb
    exact ⟨by rw [setting_shown.2]; omega, by rw [hc2]; simp⟩
  · simp only [List.mem_cons, List.not_mem_nil, or_false] at hop
    rcases hop with rfl | rfl | rfl <;> rfl

/-- Instance of `c112_never_fit`: cluster 1 is marked (the data do not reach above level and uncertainty there), and still is when the first one
has been fitted and joined. -/
example : Calm W1 bare (setting ++ [.fit 0 {}, .join 0 1, .slice 0 ⟨none, 2⟩]) ∧
    (run W1 bare (setting ++ [.fit 0 {}, .join 0 1, .slice 0 ⟨none, 2⟩])).obj.map (fun o => o.neverFit) = [false, true, false, false] := by
  refine ⟨?_, by decide +kernel⟩
  simp only [Calm, setting, List.cons_append, List.nil_append, Adds, FitsBaseline, Slices]
  refine ⟨by simp, by simp, by simp, by simp, by simp, by simp, by simp, by simp, by simp, by simp, by simp, by simp, by simp, by simp, by simp,
    by simp, by simp, by simp, by simp, by simp, fun _ => ?_, trivial⟩
  have : succeeded (step W1 (run W1 bare (setting ++ [.fit 0 {}, .join 0 1])) (.slice 0 ⟨none, 2⟩)).1 = true := by decide +kernel
  generalize hr : (step W1 (run W1 bare (setting ++ [.fit 0 {}, .join 0 1])) (.slice 0 ⟨none, 2⟩)).1 = r at this
  have hr' : r = .ok () := by
    cases r with
    | ok u => rfl
    | error e => simp [succeeded] at this
  rw [hr'] at hr
  exact hr

/-- Instance of `c112_residual`: a peak is added to cluster 0; its copy does not have it. -/
example : ∃ o oj s, S1.obj[0]? = some o ∧ S1.obj[2]? = some oj ∧ o.y ≠ o.r ∧ o.y ≠ o.e ∧ oj.y = o.y ∧ oj.r = o.r ∧ oj.slice = some s ∧
    SortsKeys W1.as ∧ Sound S1 ∧ (S1.arr o.y).length = (S1.arr o.r).length ∧ (S1.arr o.e).length = (S1.arr o.r).length ∧
    (S1.arr oj.e).length = (S1.arr o.r).length := by
  obtain ⟨a, ha, -, a3⟩ := S1_get 0 (by omega)
  obtain ⟨c, hc, -, c3⟩ := S1_get 2 (by omega)
  simp only [List.cons.injEq, and_true] at a3 c3
  obtain ⟨a4, a5, a6⟩ := a3
  obtain ⟨c4, c5, c6⟩ := c3
  have hs := (S1_sound c (List.mem_of_getElem? hc)).1
  obtain ⟨s, hs⟩ := Option.ne_none_iff_exists'.1 hs
  refine ⟨a, c, s, ha, hc, ?_, ?_, ?_, ?_, hs, mergeAs_sorts, S1_sound, ?_, ?_, ?_⟩
  · omega
  · omega
  · omega
  · omega
  · rw [a4, a5]; decide +kernel
  · rw [a4, a6]; decide +kernel
  · rw [a4, c6]; decide +kernel

/-- Both residuals, before and after. -/
def residuals (S : Store ℚ) : List (Option (List ℚ)) := S.obj.map (fun o => (clusterResidual (load S o)).toOption)

example : residuals S1 = [some [-4, 0, 1], some [0, 0, 0], some [-4, 0, 1]] ∧
    residuals (step W1 S1 (.add 0 [bump 2 1 true])).2 = [some [-4, 0, 1], some [1, 0, 0], some [-4, 1, 2]] := by
  refine ⟨by decide +kernel, by decide +kernel⟩

/-- Instance of `c112_shared_baseline`: the fit of cluster 0 is rejected (it makes the sum of positions smaller), the level of cluster 1 is
halved all the same. -/
def levels (S : Store ℚ) : List (List ℚ) := S.obj.map (fun o => ((load S o).baseline.map Part.pars).getD [])

example : levels S1 = [[1], [1], [1]] ∧ levels (step W1 S1 (.fit 0 { fitbaseline := true })).2 = [[1], [1/2], [1]] ∧
    (step W1 S1 (.fit 0 { fitbaseline := true })).2.obj.map (fun o => o.baseline) = [some 2, some 0, some 1] ∧
    levels (step (bumpWorld 0) S1 (.fit 0 { fitbaseline := true })).2 = [[1/2], [1/2], [1]] := by
  refine ⟨by decide +kernel, by decide +kernel, by decide +kernel, by decide +kernel⟩

/-! ### never_fit after external peaks -/

/-- **C112 (finding).** `addexternalpeaks` does not look whether the data now reach above the uncertainty: the mark of the cluster, and that of every
cluster with the same data, stays as it was — such a cluster is never fitted although `c112_never_fit` no longer holds of it. -/
theorem c112_never_fit_stale {K : Type} [Field K] [LinearOrder K] (W : World K) (S : Store K) (i : ℕ) (peaks : List (Part K)) (j : ℕ) (o : Obj K)
    (ho : S.obj[j]? = some o) :
    ∃ o', (step W S (.add i peaks)).2.obj[j]? = some o' ∧ o'.neverFit = o.neverFit ∧ o'.slice = o.slice ∧
      (o.neverFit = true → ∀ opts, (step W (step W S (.add i peaks)).2 (.fit j opts)).1 = .ok () ∧
        (step W (step W S (.add i peaks)).2 (.fit j opts)).2.obj[j]? = some o') := by
  have fits : ∀ T : Store K, ∀ o' : Obj K, T.obj[j]? = some o' → o'.neverFit = true → ∀ opts,
      (step W T (.fit j opts)).1 = .ok () ∧ (step W T (.fit j opts)).2.obj[j]? = some o' := by
    intro T o' h hn opts
    have hf : ModelCluster.fit (W.env (load T o')) opts (load T o') = (.ok none, load T o', (load T o').model) := by
      unfold ModelCluster.fit
      rw [if_pos (show (load T o').neverFit = true from hn)]
    have hs : started (W.env (load T o')) opts (load T o') = none := by
      unfold started
      rw [if_pos (show (load T o').neverFit = true from hn)]
    have hc : call W (load T o') (.fit j opts) = (.ok (), load T o', still (load T o')) := by
      show ((ModelCluster.fit _ opts (load T o')).1.map _, _, fateFit _ _ _) = _
      rw [hf]
      unfold fateFit
      rw [hs]
      rfl
    have hlt : j < T.obj.length := by
      by_contra hn
      rw [List.getElem?_eq_none (by omega)] at h
      simp at h
    rw [step_call W T (.fit j opts) rfl h, hc]
    refine ⟨rfl, ?_⟩
    show ((put T j o' (load T o') (still (load T o'))).obj.modify j _)[j]? = _
    have hp : (put T j o' (load T o') (still (load T o'))).obj = T.obj.set j o' := rfl
    rw [hp, List.getElem?_modify_eq, List.getElem?_set_self hlt]
    rfl
  by_cases hij : i = j
  · subst hij
    obtain ⟨o', e1, -, -, -, -, e6⟩ := step_self W S (.add i peaks) rfl ho
    have hre := rebind_refs (.add i peaks) (succeeded (call W (load S o) (.add i peaks)).1)
      { attrs o (call W (load S o) (.add i peaks)).2.1 with baseline := o'.baseline }
    rw [← e6] at hre
    have hf := add_frame W.as (load S o) peaks
    have h1 : o'.neverFit = o.neverFit := by
      have e := congrArg Obj.neverFit hre
      have e' := congrArg Cluster.neverFit hf
      exact e.trans e'
    have h2 : o'.slice = o.slice := by
      have e := congrArg Obj.slice hre
      have e' := congrArg Cluster.slice hf
      exact e.trans e'
    exact ⟨o', e1, h1, h2, fun hn opts => fits _ o' e1 (by rw [h1]; exact hn) opts⟩
  · have h := step_obj W S (.add i peaks) (j := j) (by simpa [Op.target] using hij) ho
    exact ⟨o, h, rfl, rfl, fun hn opts => fits _ o h hn opts⟩

/-- A peak on the low points: cluster 1 keeps its mark, a copy of it does not get it. -/
example : (run W1 S1 [.add 1 [bump 4 3 true], .copy 1]).obj.map (fun o => o.neverFit) = [false, true, false, false] ∧
    residuals (run W1 S1 [.add 1 [bump 4 3 true], .delete 1 0]) = [some [-4, 0, 1], some [3, 3, 3], some [-4, 0, 1]] := by
  refine ⟨by decide +kernel, by decide +kernel⟩

end Verif.Parts.Shared
