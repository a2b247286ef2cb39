import Verif.Multimodel.Classify
import Verif.Evaluator.Props
import Verif.PeakList.Props

/-!
# C45, C46: rankings of models and classes, rescaled AICs
-/

namespace Verif.Multimodel

open Verif.Py

set_option linter.unusedSectionVars false

/-! ### Specification -/

/-- `get k`, `k = 0, 1, ...`, runs through `elems`, each once, from the best (lowest) value of `stat` to the worst,
and raises IndexError beyond. -/
def Ranks (get : ℕ → Res ℕ) (elems : List ℕ) (stat : ℕ → ℝ) : Prop :=
  ∃ order : List ℕ, order.Perm elems ∧ order.Pairwise (fun a b => stat a ≤ stat b) ∧
    ∀ k : ℕ, (∀ a, order[k]? = some a → get k = .ok a) ∧ (order.length ≤ k → get k = .error .index)

theorem fromEnd_ranks (l elems : List ℕ) (stat : ℕ → ℝ) (hp : l.Perm elems)
    (hs : l.Pairwise (fun a b => stat b ≤ stat a)) : Ranks (fun k => fromEnd l k) elems stat := by
  refine ⟨l.reverse, (List.reverse_perm l).trans hp, List.pairwise_reverse.2 hs, fun k => ⟨?_, ?_⟩⟩
  · intro a ha
    simp only [fromEnd, ha]
  · intro hk
    simp only [fromEnd, List.getElem?_eq_none hk]

theorem argsort_probs {as : List ℝ → List ℕ} (h : PeakList.SortsKeys as) (stats : List ℝ) (p : List ℝ)
    (hp : probs stats = .ok p) :
    (as p).Perm (List.range stats.length) ∧ (as p).Pairwise (fun a b => stats.getD b 0 ≤ stats.getD a 0) := by
  have hne : stats ≠ [] := by
    intro e; subst e; simp [probs, Evaluator.akaikeProbs, Evaluator.akaikeWeights] at hp
  obtain ⟨q, hq, hlen, -, -, hord⟩ := Evaluator.c13_probs stats hne
  have : p = q := by
    simp only [probs, hq] at hp
    cases hp; rfl
  subst this
  obtain ⟨h1, h2⟩ := h p
  rw [hlen] at h1
  refine ⟨h1, ?_⟩
  rw [List.pairwise_iff_getElem]
  intro i j hi hj hij
  have ha : (as p)[i] < stats.length := List.mem_range.1 (h1.mem_iff.1 (List.getElem_mem hi))
  have hb : (as p)[j] < stats.length := List.mem_range.1 (h1.mem_iff.1 (List.getElem_mem hj))
  obtain ⟨u, v, hu, hv, huv⟩ := hord _ _ hb ha
  have hle := h2 i j _ _ v u hij (List.getElem?_eq_getElem hi) (List.getElem?_eq_getElem hj) hv hu
  rw [List.getD_eq_getElem?_getD, List.getD_eq_getElem?_getD, List.getElem?_eq_getElem ha, List.getElem?_eq_getElem hb]
  simp only [Option.getD_some]
  by_contra hc
  exact absurd (huv.2 (not_le.1 hc)) (not_lt.2 hle)

theorem probs_ok (stats : List ℝ) (h : stats ≠ []) : ∃ p, probs stats = .ok p := by
  obtain ⟨q, hq, -⟩ := Evaluator.c13_probs stats h
  exact ⟨q, by simp only [probs, hq]⟩

theorem sortClass_spec (stats : List ℝ) (cls : List ℕ) :
    (sortClass stats cls).Perm cls ∧ (sortClass stats cls).Pairwise (fun a b => stats.getD b 0 ≤ stats.getD a 0) := by
  constructor
  · exact List.mergeSort_perm _ _
  · have := List.pairwise_mergeSort (le := fun i j => decide (stats.getD j 0 ≤ stats.getD i 0))
      (by intro a b c; simp only [decide_eq_true_eq]; intro h1 h2; exact h2.trans h1)
      (by intro a b; simp only [Bool.or_eq_true, decide_eq_true_eq]; exact le_total _ _) cls
    exact this.imp (by intro a b h; simpa using h)

/-! ### C45 -/

/-- **C45.** With `cls=None`, `get_model(dG, morder=k)` runs through all the models, each once, from the lowest AIC to
the highest; IndexError beyond — whatever numpy's `argsort` does with equal probabilities. -/
theorem c45_all_models {as : List ℝ → List ℕ} (h : PeakList.SortsKeys as) (stats : List ℝ) (hne : stats ≠ [])
    (classes : List (List ℕ)) (corder : ℕ) :
    Ranks (fun k => getModel as stats classes corder k .ignore) (List.range stats.length) (fun i => stats.getD i 0) := by
  obtain ⟨p, hp⟩ := probs_ok stats hne
  obtain ⟨h1, h2⟩ := argsort_probs h stats p hp
  have := fromEnd_ranks (as p) _ (fun i => stats.getD i 0) h1 h2
  simpa only [getModel, hp] using this

/-- **C45.** With `cls=c`, `get_model(dG, morder=k)` runs through the models of class `c` in the same way. -/
theorem c45_class_models (as : List ℝ → List ℕ) (stats : List ℝ) (classes : List (List ℕ)) (corder c : ℕ)
    (cls : List ℕ) (hc : classes[c]? = some cls) :
    Ranks (fun k => getModel as stats classes corder k (.index c)) cls (fun i => stats.getD i 0) := by
  obtain ⟨h1, h2⟩ := sortClass_spec stats cls
  have := fromEnd_ranks (sortClass stats cls) _ (fun i => stats.getD i 0) h1 h2
  simpa only [getModel, sortedClasses, List.getElem?_map, hc, Option.map_some] using this

/-- The lowest AIC of a class. -/
def IsBestStat (stats : List ℝ) (cls : List ℕ) (v : ℝ) : Prop :=
  (∃ i ∈ cls, stats.getD i 0 = v) ∧ ∀ i ∈ cls, v ≤ stats.getD i 0

theorem getLastD_sortClass (stats : List ℝ) (cls : List ℕ) (h : cls ≠ []) :
    (sortClass stats cls).getLastD 0 ∈ cls ∧ ∀ i ∈ cls, stats.getD ((sortClass stats cls).getLastD 0) 0 ≤ stats.getD i 0 := by
  obtain ⟨h1, h2⟩ := sortClass_spec stats cls
  have hne : sortClass stats cls ≠ [] := by
    intro e; rw [e] at h1; exact h h1.symm.eq_nil
  generalize sortClass stats cls = l at h1 h2 hne
  obtain ⟨l', a, rfl⟩ : ∃ l' a, l = l' ++ [a] := ⟨l.dropLast, l.getLast hne, (List.dropLast_append_getLast hne).symm⟩
  simp only [List.getLastD_concat]
  refine ⟨h1.mem_iff.1 (by simp), fun i hi => ?_⟩
  have hi' := h1.mem_iff.2 hi
  rcases List.mem_append.1 hi' with h' | h'
  · exact (List.pairwise_append.1 h2).2.2 i h' a (by simp)
  · simp at h'; subst h'; exact le_rfl

theorem bestStats_getElem? (stats : List ℝ) (classes : List (List ℕ)) (c : ℕ) :
    (bestStats stats classes)[c]? = (classes[c]?).map (fun cls => stats.getD ((sortClass stats cls).getLastD 0) 0) := by
  simp [bestStats, sortedClasses, List.getElem?_map, Function.comp_def]

/-- **C45.** `get_class(dG, corder=k)` runs through the classes, each once, in the order of the lowest AIC found in the
class. -/
theorem c45_classes {as : List ℝ → List ℕ} (h : PeakList.SortsKeys as) (stats : List ℝ) (classes : List (List ℕ))
    (hne : classes ≠ []) (hcl : ∀ cls ∈ classes, cls ≠ []) :
    ∃ best : ℕ → ℝ, (∀ c cls, classes[c]? = some cls → IsBestStat stats cls (best c)) ∧
      Ranks (fun k => getClass as stats classes k) (List.range classes.length) best := by
  refine ⟨fun c => (bestStats stats classes).getD c 0, ?_, ?_⟩
  · intro c cls hc
    have : (bestStats stats classes).getD c 0 = stats.getD ((sortClass stats cls).getLastD 0) 0 := by
      rw [List.getD_eq_getElem?_getD, bestStats_getElem?, hc]; rfl
    simp only [this]
    obtain ⟨h1, h2⟩ := getLastD_sortClass stats cls (hcl cls (List.mem_of_getElem? hc))
    exact ⟨⟨_, h1, rfl⟩, h2⟩
  · have hb : bestStats stats classes ≠ [] := by
      intro e; apply hne
      have := congrArg List.length e
      simpa [bestStats, sortedClasses] using this
    obtain ⟨p, hp⟩ := probs_ok _ hb
    obtain ⟨h1, h2⟩ := argsort_probs h _ p hp
    have hl : (bestStats stats classes).length = classes.length := by simp [bestStats, sortedClasses]
    rw [hl] at h1
    have := fromEnd_ranks (as p) _ _ h1 h2
    simpa only [getClass, hp] using this

theorem Ranks.best {get : ℕ → Res ℕ} {elems : List ℕ} {stat : ℕ → ℝ} (h : Ranks get elems stat) (hne : elems ≠ []) :
    ∃ m ∈ elems, get 0 = .ok m ∧ ∀ j ∈ elems, stat m ≤ stat j := by
  obtain ⟨order, hp, hs, hg⟩ := h
  cases order with
  | nil => exact absurd hp.symm.eq_nil hne
  | cons m rest =>
    refine ⟨m, hp.mem_iff.1 (by simp), (hg 0).1 m rfl, fun j hj => ?_⟩
    rcases List.mem_cons.1 (hp.mem_iff.2 hj) with rfl | hj'
    · exact le_rfl
    · exact (List.pairwise_cons.1 hs).1 j hj'

/-- **C45.** When the classes partition the models, `get_model(dG)` without further arguments is a model of the lowest
AIC of all, and it lies in the class `get_class(dG)`. -/
theorem c45_default {as : List ℝ → List ℕ} (h : PeakList.SortsKeys as) (stats : List ℝ) (hne : stats ≠ [])
    (classes : List (List ℕ)) (hpart : classes.flatten.Perm (List.range stats.length))
    (hcl : ∀ cls ∈ classes, cls ≠ []) :
    ∃ m c cls, getModel as stats classes 0 0 .notGiven = .ok m ∧ getClass as stats classes 0 = .ok c ∧
      classes[c]? = some cls ∧ m ∈ cls ∧ m < stats.length ∧ ∀ j < stats.length, stats.getD m 0 ≤ stats.getD j 0 := by
  have hc0 : classes ≠ [] := by
    rintro rfl
    have := hpart.length_eq
    simp at this
    exact hne (List.length_eq_zero_iff.1 this.symm)
  obtain ⟨best, hbest, hr⟩ := c45_classes h stats classes hc0 hcl
  obtain ⟨c, hc, hgc, hcmin⟩ := hr.best (by simpa using hc0)
  have hclt : c < classes.length := List.mem_range.1 hc
  have hcc := List.getElem?_eq_getElem hclt
  have hr2 := c45_class_models as stats classes 0 c _ hcc
  obtain ⟨m, hm, hgm, hmmin⟩ := hr2.best (hcl _ (List.getElem_mem hclt))
  refine ⟨m, c, classes[c], ?_, hgc, hcc, hm, ?_, ?_⟩
  · simp only [getModel, hgc]
    simpa only [getModel] using hgm
  · exact List.mem_range.1 (hpart.mem_iff.1 (List.mem_flatten.2 ⟨_, List.getElem_mem hclt, hm⟩))
  · intro j hj
    obtain ⟨cls', hcls', hj'⟩ := List.mem_flatten.1 (hpart.mem_iff.2 (List.mem_range.2 hj))
    obtain ⟨c', hc', rfl⟩ := List.mem_iff_getElem.1 hcls'
    obtain ⟨⟨i, hi, hie⟩, hb1⟩ := hbest c _ hcc
    obtain ⟨-, hb2⟩ := hbest c' _ (List.getElem?_eq_getElem hc')
    calc stats.getD m 0 ≤ stats.getD i 0 := hmmin i hi
      _ = best c := hie
      _ ≤ best c' := hcmin c' (List.mem_range.2 hc')
      _ ≤ stats.getD j 0 := hb2 j hj'

/-- **C45.** `get_prob`, with classes: there is one probability for each class, they are positive and sum to 1, a class
has a higher one exactly if its best model has a lower AIC; and `get_prob` gives that of the class of the model that
`get_model` gives with the same arguments. -/
theorem c45_prob_of_class (as : List ℝ → List ℕ) (stats : List ℝ) (classes : List (List ℕ)) (hne : classes ≠ [])
    (idx : List (ℕ × ℕ)) (hcl : ∀ cls ∈ classes, cls ≠ [])
    (hidx : ∀ (c : ℕ) cls i, classes[c]? = some cls → i ∈ cls → classOf idx i = some c) :
    ∃ p : List ℝ, p.length = classes.length ∧ p.sum = 1 ∧ (∀ v ∈ p, 0 < v) ∧
      (∀ (c d : ℕ) cls cls' u v s t, classes[c]? = some cls → classes[d]? = some cls' → p[c]? = some u → p[d]? = some v →
        IsBestStat stats cls s → IsBestStat stats cls' t → (u < v ↔ t < s)) ∧
      ∀ corder morder sel m, sel ≠ Cls.ignore → getModel as stats classes corder morder sel = .ok m →
        ∃ (c : ℕ) (cls : List ℕ) (v : ℝ), classes[c]? = some cls ∧ m ∈ cls ∧ p[c]? = some v ∧
          getProb as stats classes idx corder morder sel = .ok v := by
  have hb : bestStats stats classes ≠ [] := by
    intro e; apply hne
    have := congrArg List.length e
    simpa [bestStats, sortedClasses] using this
  have hl : (bestStats stats classes).length = classes.length := by simp [bestStats, sortedClasses]
  obtain ⟨p, hp, hlen, hsum, hpos, hord⟩ := Evaluator.c13_probs _ hb
  have hbest : ∀ (c : ℕ) cls, classes[c]? = some cls →
      ∃ w, (bestStats stats classes)[c]? = some w ∧ IsBestStat stats cls w := by
    intro c cls hc
    refine ⟨_, by rw [bestStats_getElem?, hc]; rfl, ?_⟩
    obtain ⟨h1, h2⟩ := getLastD_sortClass stats cls (hcl cls (List.mem_of_getElem? hc))
    exact ⟨⟨_, h1, rfl⟩, h2⟩
  have huniq : ∀ cls a b, IsBestStat stats cls a → IsBestStat stats cls b → a = b := by
    rintro cls a b ⟨⟨i, hi, rfl⟩, ha⟩ ⟨⟨j, hj, rfl⟩, hb'⟩
    exact le_antisymm (ha j hj) (hb' i hi)
  refine ⟨p, by omega, hsum, fun v hv => (hpos v hv).1, ?_, ?_⟩
  · intro c d cls cls' u v s t hc hd hu hv hs ht
    obtain ⟨w, hw, hw'⟩ := hbest c cls hc
    obtain ⟨x, hx, hx'⟩ := hbest d cls' hd
    obtain ⟨hcl', hwe⟩ := List.getElem?_eq_some_iff.1 hw
    obtain ⟨hdl', hxe⟩ := List.getElem?_eq_some_iff.1 hx
    obtain ⟨u', v', hu', hv', hiff⟩ := hord c d hcl' hdl'
    rw [hu] at hu'; rw [hv] at hv'
    cases hu'; cases hv'
    rw [hwe, hxe, huniq _ _ _ hw' hs, huniq _ _ _ hx' ht] at hiff
    exact hiff
  · intro corder morder sel m hsel hm
    have key : ∀ c : ℕ, (match (sortedClasses stats classes)[c]? with
          | none => (.error .index : Res ℕ)
          | some l => fromEnd l morder) = .ok m →
        ∃ cls, classes[c]? = some cls ∧ m ∈ cls := by
      intro c h
      rw [sortedClasses, List.getElem?_map] at h
      cases hc : classes[c]? with
      | none => rw [hc] at h; simp at h
      | some cls =>
        rw [hc] at h
        simp only [Option.map_some, fromEnd] at h
        cases hk : (sortClass stats cls).reverse[morder]? with
        | none => rw [hk] at h; simp at h
        | some a =>
          rw [hk] at h
          cases h
          refine ⟨cls, rfl, ?_⟩
          exact (sortClass_spec stats cls).1.mem_iff.1 (List.mem_reverse.1 (List.mem_of_getElem? hk))
    have : ∃ (c : ℕ) (cls : List ℕ), classes[c]? = some cls ∧ m ∈ cls := by
      cases sel with
      | ignore => exact absurd rfl hsel
      | index c => exact ⟨c, key c hm⟩
      | notGiven =>
        simp only [getModel] at hm
        cases hg : getClass as stats classes corder with
        | error e => rw [hg] at hm; simp at hm
        | ok c => rw [hg] at hm; exact ⟨c, key c hm⟩
    obtain ⟨c, cls, hc, hmc⟩ := this
    have hcl' : c < p.length := by
      rw [hlen, hl]; exact (List.getElem?_eq_some_iff.1 hc).1
    refine ⟨c, cls, p[c], hc, hmc, List.getElem?_eq_getElem hcl', ?_⟩
    simp only [getProb, hm]
    cases sel with
    | ignore => exact absurd rfl hsel
    | index _ => simp only [hidx c cls m hc hmc, probs, hp, List.getElem?_eq_getElem hcl']
    | notGiven => simp only [hidx c cls m hc hmc, probs, hp, List.getElem?_eq_getElem hcl']

/-- **C45.** `modelbestdgs(model)`: exactly the uncertainties, in their order, at which the best class is the class of
the model and the best model of that class is the model. -/
theorem c45_modelbestdgs {D : Type} (all : List D) (best : D → ℕ) (bestModel : D → ℕ → ℕ) (idx : List (ℕ × ℕ))
    (model c : ℕ) (hc : classOf idx model = some c) (dgs : Option (List D))
    (hin : ∀ dg ∈ all, classOf idx (bestModel dg (best dg)) = some (best dg)) :
    ∃ l, modelbestdgs all best bestModel idx model dgs = .ok l ∧ l.Sublist all ∧
      ∀ dg ∈ all, (dg ∈ l ↔ bestModel dg (best dg) = model) := by
  refine ⟨(classbestdgs all best c dgs).filter (fun dg => bestModel dg c == model), by simp only [modelbestdgs, hc], ?_, ?_⟩
  · exact (List.filter_sublist).trans List.filter_sublist
  · intro dg hdg
    simp only [classbestdgs, List.mem_filter, beq_iff_eq, hdg, true_and]
    constructor
    · rintro ⟨rfl, h⟩; exact h
    · intro h
      have := hin dg hdg
      rw [h, hc] at this
      cases this
      exact ⟨rfl, h⟩

/-- **C45, finding.** `classbestdgs(cls, dgs)` and `modelbestdgs(model, dgs)` do not look at `dgs`: the answer can contain
uncertainties that were not asked for. -/
theorem c45_dgs_ignored {D : Type} (all : List D) (best : D → ℕ) (cls : ℕ) (dgs : Option (List D)) :
    classbestdgs all best cls dgs = classbestdgs all best cls none ∧
    ∀ dg ∈ all, best dg = cls → dg ∈ classbestdgs all best cls (some []) := by
  refine ⟨rfl, fun dg h1 h2 => ?_⟩
  simp [classbestdgs, h1, h2]

/-- **C45.** `dg_key(v)`: one of the tested uncertainties, none is nearer to `v`. -/
theorem c45_dg_key {argmin : List ℝ → Option ℕ}
    (ham : ∀ l, l ≠ [] → ∃ i v, argmin l = some i ∧ l[i]? = some v ∧ ∀ w ∈ l, v ≤ w)
    (dgs : List ℝ) (hne : dgs ≠ []) (v : ℝ) :
    ∃ d ∈ dgs, dgKey argmin dgs v = .ok d ∧ ∀ d' ∈ dgs, |d - v| ≤ |d' - v| := by
  obtain ⟨i, w, hi, hw, hmin⟩ := ham (dgs.map (fun d => abs (d - v))) (by simpa using hne)
  rw [List.getElem?_map] at hw
  cases hd : dgs[i]? with
  | none => rw [hd] at hw; simp at hw
  | some d =>
    rw [hd] at hw
    cases hw
    refine ⟨d, List.mem_of_getElem? hd, by simp only [dgKey, hi, hd], fun d' hd' => ?_⟩
    exact hmin _ (List.mem_map.2 ⟨d', hd', rfl⟩)

/-! ### C46 -/

theorem chiSquared_const {K : Type} [Field K] [LinearOrder K] [IsStrictOrderedRing K] (e o : List K) (y : List K) (dg : K) :
    Evaluator.chiSquared e o (y.map (fun _ => dg * 1)) = Evaluator.chiSquared e o (y.map (fun _ => (1 : K))) / dg ^ 2 := by
  have := Evaluator.c11_chisq_scaling e o (y.map (fun _ => (1 : K))) dg
  rw [List.map_map] at this
  exact this

/-- **C46.** The shortcut of `makeaics` — chi-square computed once for the first uncertainty and rescaled — gives for
every model and every uncertainty the statistic and the chi-square of a direct evaluation with that uncertainty. -/
theorem c46_rescaled {K : Type} [Field K] [LinearOrder K] [IsStrictOrderedRing K] (kind : Evaluator.Kind) (y : List K) (dg0 dg : K)
    (h0 : dg0 ≠ 0) (m : Fitted K) :
    rescaled kind y dg0 dg m = Evaluator.evaluate kind (Evaluator.new kind) (toFit y dg m) false 0 := by
  have hneg : ¬ ((m.nfree : ℤ) + 0 < 0) := by omega
  have hc : Evaluator.chiSquared m.value y (y.map (fun _ => dg0 * 1)) * (dg0 / dg) ^ 2 =
      Evaluator.chiSquared m.value y (y.map (fun _ => dg * 1)) := by
    rw [chiSquared_const, chiSquared_const m.value y y dg, div_pow, div_mul_div_comm, mul_comm _ (dg0 ^ 2),
      mul_div_mul_left _ _ (pow_ne_zero 2 h0)]
  cases kind <;>
    simp only [rescaled, Evaluator.evaluate, toFit, Evaluator.new, Evaluator.chisqOf, Bool.false_eq_true, if_false,
      if_neg hneg, Option.map_some, Evaluator.Fit.size, hc]

/-- **C46.** After `makeaics`, the list of an uncertainty that occurs once holds one entry for each model, in their
order; an uncertainty given `k` times has each entry `k` times (finding: the numbers of the models and of the entries
then differ); one that was not given has none. -/
theorem c46_makeaics {K : Type} [Field K] [LinearOrder K] (dgs : List K) (entry : Fitted K → K → K)
    (results : List (Fitted K)) (dg : K) :
    makeaics dgs entry results dg = results.flatMap (fun m => List.replicate (dgs.count dg) (entry m dg)) := by
  have inner : ∀ (m : Fitted K) (l : List K) (aics : K → List K),
      l.foldl (fun aics dg => fun k => if k = dg then aics k ++ [entry m dg] else aics k) aics dg =
        aics dg ++ List.replicate (l.count dg) (entry m dg) := by
    intro m l
    induction l with
    | nil => intro aics; simp
    | cons d l ih =>
      intro aics
      rw [List.foldl_cons, ih]
      by_cases h : dg = d
      · subst h
        rw [if_pos rfl, List.count_cons_self, List.append_assoc, List.replicate_succ]
        rfl
      · rw [if_neg h, List.count_cons_of_ne (Ne.symm h)]
  have outer : ∀ (l : List (Fitted K)) (aics : K → List K),
      l.foldl (fun aics m => dgs.foldl (fun aics dg => fun k => if k = dg then aics k ++ [entry m dg] else aics k) aics) aics dg =
        aics dg ++ l.flatMap (fun m => List.replicate (dgs.count dg) (entry m dg)) := by
    intro l
    induction l with
    | nil => intro aics; simp
    | cons m l ih =>
      intro aics
      rw [List.foldl_cons, ih, inner, List.append_assoc]
      simp
  simpa [makeaics] using outer results (fun _ => [])

theorem c46_makeaics_distinct {K : Type} [Field K] [LinearOrder K] (dgs : List K) (hnd : dgs.Nodup)
    (entry : Fitted K → K → K) (results : List (Fitted K)) (dg : K) (h : dg ∈ dgs) :
    makeaics dgs entry results dg = results.map (fun m => entry m dg) := by
  rw [c46_makeaics, List.count_eq_one_of_mem hnd h]
  simp only [List.replicate_one]
  induction results with
  | nil => rfl
  | cons a l ih => rw [List.flatMap_cons, ih]; rfl

/-! ### Instances -/

/-- Instance: an order function as `numpy.argsort` is exists; three models in two classes. -/
example : ∃ as : List ℝ → List ℕ, PeakList.SortsKeys as := by
  classical
  refine ⟨fun keys => (List.range keys.length).mergeSort (fun i j => decide (keys.getD i 0 ≤ keys.getD j 0)), ?_⟩
  intro keys
  refine ⟨List.mergeSort_perm _ _, ?_⟩
  intro i j a b ka kb hij ha hb hka hkb
  have := List.pairwise_mergeSort (le := fun i j => decide (keys.getD i 0 ≤ keys.getD j 0))
    (by intro a b c; simp only [decide_eq_true_eq]; exact le_trans)
    (by intro a b; simp only [Bool.or_eq_true, decide_eq_true_eq]; exact le_total _ _) (List.range keys.length)
  rw [List.pairwise_iff_getElem] at this
  obtain ⟨hi, rfl⟩ := List.getElem?_eq_some_iff.1 ha
  obtain ⟨hj, rfl⟩ := List.getElem?_eq_some_iff.1 hb
  have := this i j hi hj hij
  rw [decide_eq_true_eq, List.getD_eq_getElem?_getD, List.getD_eq_getElem?_getD] at this
  simp only [hka, hkb, Option.getD_some] at this
  exact this

/-- Instance: the hypotheses about classes hold of the result of `classify`. -/
example : let r := classify (1 / 10 : ℚ) [exModel 0 [10, 0], exModel 0 [20, 0], exModel 0 [10, 1]]
    r.1.flatten.Perm (List.range 3) ∧ (∀ cls ∈ r.1, cls ≠ []) ∧
      ∀ (c : ℕ) cls i, r.1[c]? = some cls → i ∈ cls → classOf r.2 i = some c := by
  have : classify (1 / 10 : ℚ) [exModel 0 [10, 0], exModel 0 [20, 0], exModel 0 [10, 1]] = ([[0, 2], [1]], [(2, 0), (1, 1), (0, 0)]) := by
    decide +kernel
  rw [this]
  refine ⟨by decide, by decide, ?_⟩
  intro c cls i hc hi
  match c with
  | 0 => simp at hc; subst hc; simp at hi; rcases hi with rfl | rfl <;> decide
  | 1 => simp at hc; subst hc; simp at hi; subst hi; decide
  | c + 2 => simp at hc

/-- Instance: two uncertainties, one of them given twice. -/
example : makeaics [1, 2, 2] (fun (m : Fitted ℚ) dg => m.nfree + dg) [⟨1, 1, []⟩, ⟨5, 5, []⟩] 2 = [3, 3, 7, 7] := by
  rw [c46_makeaics]; norm_num [List.count_cons, List.replicate]

end Verif.Multimodel
