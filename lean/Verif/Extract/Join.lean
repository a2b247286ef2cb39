import Verif.Extract.Example

/-!
# The steps of `extract_single` (C71, C73)
-/

set_option linter.unusedSectionVars false

namespace Verif.Parts.Extract

open Verif.Py Verif.PeakList Verif.Parts.ModelCluster Verif.Extraction

variable {K : Type} [Field K] [LinearOrder K] [IsStrictOrderedRing K]
variable {W : World K} {D : Defaults K} {H : Heap K} {J : Job K} {Q : Key K → Prop}

/-! ### When there is a recursive search -/

theorem deepen_quiet (hg : ∀ c, (W.env c).growth [] none = false) (J : Job K) (rec : Deeper K) :
    deepen W J rec = deepen W J none := by
  funext c must
  unfold deepen
  split
  · rfl
  · rename_i chk _
    rw [hg chk]
    simp

theorem joinLoop_congr {rec : Deeper K} (hd : deepen W J rec = deepen W J none) (y : List K) (rows : List (ℕ × ℕ)) :
    ∀ l ms, joinLoop W J rec y rows l ms = joinLoop W J none y rows l ms := by
  intro l
  induction l with
  | nil => intro ms; rfl
  | cons i l ih =>
    intro ms
    unfold joinLoop joined variant1 variant2
    rw [hd]
    simp only [ih]

theorem mainLoop_congr {rec : Deeper K} (hd : deepen W J rec = deepen W J none) (y : List K) (mp : ℕ) :
    ∀ n s ms, mainLoop W J rec y mp n s ms = mainLoop W J none y mp n s ms := by
  intro n
  induction n with
  | zero => intro s ms; rfl
  | succ n ih =>
    intro s ms
    have hi : ∀ s ms, iteration W J rec y mp s ms = iteration W J none y mp s ms := by
      intro s ms
      unfold iteration atBoundary boundary
      rw [hd]
      simp only [joinLoop_congr hd]
    unfold mainLoop
    simp only [hi, ih]

/-- **C71.** No recursive search without a reason: if the evaluator never holds that more peaks could be justified in a
residual, `extract_single` calls itself not even once (a bound of 1 on the nesting of calls makes no difference). -/
theorem c71_no_reason (hg : ∀ c, (W.env c).growth [] none = false) (n depth : ℕ) (s : PX K) :
    extractSingle W H D (n + 1) depth s = extractSingle W H D 1 depth s := by
  have key : ∀ (J : Job K) (rec : Deeper K) (top : Bool), search W J rec top = search W J none top := by
    intro J rec top
    unfold search searchN
    simp only [mainLoop_congr (deepen_quiet hg J rec)]
  unfold extractSingle
  split
  · rfl
  · split
    · rfl
    · exact (key _ _ _).trans (key _ _ _).symm

/-- Instance: a world where growth is never justified; the search returns all the same. -/
def dullWorld : World ℚ := { dotWorld with env := fun c => { dotEnv c with growth := fun _ _ => false } }

example : (∀ c, (dullWorld.env c).growth [] none = false) ∧
    shown (extractSingle dullWorld dotHeap dotDef 1 1 (dotVars none none)) ≠ none ∧
    shown (extractSingle dotWorld dotHeap dotDef 1 1 (dotVars none none)) = none := by
  refine ⟨fun _ => rfl, ?_, ?_⟩ <;> decide +kernel

/-! ### Joining and boundaries -/

theorem filterMap_range {α : Type} (l : List α) : (List.range l.length).filterMap (fun (i : ℕ) => l[i]?) = l := by
  induction l with
  | nil => simp
  | cons a l ih =>
    rw [List.length_cons, List.range_succ_eq_map, List.filterMap_cons, List.filterMap_map]
    simp only [List.getElem?_cons_zero]
    congr 1

/-- The peaks around a border and the other ones are together the peaks of the cluster, each once. -/
theorem hood_split {x y dy : List K} {c : Cluster K} {b : K} {h : Hood K} (hh : hood W x y dy c b = .ok h) :
    (h.near ++ h.other).Perm c.model ∧ h.near.length ≤ 2 ∧ (c.model ≠ [] → h.near ≠ []) := by
  unfold hood at hh
  split at hh
  · simp at hh
  · simp only [Except.ok.injEq] at hh
    subst hh
    simp only [List.length_map]
    generalize hp : pivot (c.model.map pos) b = p
    have hple : p ≤ c.model.length := by
      rw [← hp, pivot]
      refine (List.takeWhile_prefix _).length_le.trans ?_
      simp
    obtain ⟨h1, -, -, h4⟩ := c41_partition c.model.length p hple
    refine ⟨?_, (List.length_filterMap_le _ _).trans h4, ?_⟩
    · rw [← List.filterMap_append]
      refine (h1.filterMap _).trans ?_
      rw [filterMap_range]
    · intro hne hnil
      have hlen : 0 < c.model.length := List.length_pos_iff.2 hne
      have : ∃ i ∈ nearIdx c.model.length p, i < c.model.length := by
        unfold nearIdx
        by_cases h0 : p = 0
        · exact ⟨p, by simp [h0]; omega, by omega⟩
        · exact ⟨p - 1, by simp [h0], by omega⟩
      obtain ⟨i, hi, hl⟩ := this
      have : c.model[i] ∈ (nearIdx c.model.length p).filterMap (fun (i : ℕ) => c.model[i]?) :=
        List.mem_filterMap.2 ⟨i, hi, by simp [hl]⟩
      rw [hnil] at this
      simp at this

/-- The peaks that a fit with `justify` makes of a non-empty model. -/
theorem fitted_kept (hS : Sane W) {o : Opts} {c d : Cluster K} (hd : fitted W o c = .ok d) (hne : c.model ≠ []) :
    Kept c.model d.model := by
  unfold fitted at hd
  obtain ⟨-, h, -⟩ := fit_data (hS.tame c) o c
  split at hd
  · simp at hd
  · rename_i heq
    rw [heq] at h
    simp only [Except.ok.injEq] at hd
    subst hd
    exact h.resolve_right (fun hc => hne hc.1)

theorem kept_of_perm {m m' : List (Part K)} (h : m'.Perm m) : Kept m m' :=
  ⟨(h.map _).subperm, (h.filter _).map _⟩

theorem withPeaks_perm (hS : Sane W) {c d : Cluster K} {other new : List (Part K)} (h : withPeaks W c other new = .ok d) :
    d.model.Perm (new ++ other) ∧ d.baseline = c.baseline ∧ d.slice = c.slice ∧ d.y = c.y ∧ d.r = c.r := by
  unfold withPeaks at h
  rw [replace0] at h
  simp only [Except.ok.injEq] at h
  subst h
  exact ⟨(c37_sort hS.sorts false pos _).1, rfl, rfl, rfl, rfl⟩

/-- **C73.** Joining two clusters.  Of the peaks of the joined cluster those that are not next to the border go into the
result unless the final fit removes them as poor (never a non-removable one); for those next to the border (at most
two, at least one if there are peaks) two models are worked out, one with the peaks reduced to the height at the border,
one with the peaks fitted, and the first is taken if it is better, else the second. -/
theorem c73_join (hS : Sane W) {rec : Deeper K} {y : List K} {cl cr : ℕ × ℕ} {m1 m2 d : Cluster K}
    (hd : joined W J rec y cl cr m1 m2 = .ok d) :
    ∃ (new a1 a2 best : Cluster K) (h : Hood K),
      joinAdjacent W.as W.eqv W.sc W.val (excess W m1) m1 m2 = .ok new ∧
      (h.near ++ h.other).Perm new.model ∧ h.near.length ≤ 2 ∧ (new.model ≠ [] → h.near ≠ []) ∧
      variant1 W J rec h ((J.x.getD cl.2 0 + J.x.getD cr.1 0) / 2) ((y.getD cl.2 0 + y.getD cr.1 0) / 2) = .ok a1 ∧
      variant2 W J rec h = .ok a2 ∧
      (∃ b, Evaluator.gt ((W.env a1).quality a1.model a1.baseline) ((W.env a2).quality a2.model a2.baseline) = .ok b ∧
        best = if b then a1 else a2) ∧
      (best.model ++ h.other ≠ [] → Kept (best.model ++ h.other) d.model) := by
  unfold joined at hd
  obtain ⟨new, hnew, hd⟩ := bind_ok hd
  obtain ⟨xl, hxl, hd⟩ := bind_ok hd
  obtain ⟨xr, hxr, hd⟩ := bind_ok hd
  obtain ⟨yl, hyl, hd⟩ := bind_ok hd
  obtain ⟨yr, hyr, hd⟩ := bind_ok hd
  obtain ⟨h, hh, hd⟩ := bind_ok hd
  obtain ⟨a1, ha1, hd⟩ := bind_ok hd
  obtain ⟨a2, ha2, hd⟩ := bind_ok hd
  obtain ⟨-, -, hd⟩ := bind_ok hd
  obtain ⟨best, hbest, hd⟩ := bind_ok hd
  obtain ⟨new', hnew', hd⟩ := bind_ok hd
  obtain ⟨hs1, hs2, hs3⟩ := hood_split hh
  have hx : J.x.getD cl.2 0 = xl ∧ J.x.getD cr.1 0 = xr ∧ y.getD cl.2 0 = yl ∧ y.getD cr.1 0 = yr := by
    simp [List.getD_eq_getElem?_getD, item_ok hxl, item_ok hxr, item_ok hyl, item_ok hyr]
  rw [hx.1, hx.2.1, hx.2.2.1, hx.2.2.2]
  obtain ⟨hp, -⟩ := withPeaks_perm hS hnew'
  refine ⟨new, a1, a2, best, h, hnew, hs1, hs2, hs3, ha1, ha2, ?_, ?_⟩
  · unfold better at hbest
    split at hbest
    · simp at hbest
    · rename_i he
      exact ⟨true, he, by simpa using hbest.symm⟩
    · rename_i he
      exact ⟨false, he, by simpa using hbest.symm⟩
  · intro hne
    have hne' : new'.model ≠ [] := fun h0 => hne (by rw [h0] at hp; exact hp.symm.eq_nil)
    exact (kept_of_perm hp).trans (fitted_kept hS hd hne')

/-- **C73.** What a deeper search does to the model of a neighbourhood: the peaks it has stay; the only other peaks are
such as were found by the deeper search, in the residual of that very model. -/
theorem c73_deepen {rec : Deeper K} {c d : Cluster K} {must : Bool} (hd : deepen W J rec c must = .ok d) :
    d = c ∨ ∃ f found, rec = some f ∧ must = true ∧
      f c.r (List.zipWith (fun a b => b - (c.model.map (fun p => W.val p a)).sum) c.r c.y) c.err = .ok found ∧
      augmented W c found.model = .ok d := by
  unfold deepen at hd
  split at hd
  · simp at hd
  · rename_i chk _
    by_cases hm : (must && (W.env chk).growth [] none) = true
    · rw [if_pos hm] at hd
      cases rec with
      | none => left; simpa using hd.symm
      | some f =>
        simp only at hd
        split at hd
        · simp at hd
        · rename_i found hf
          refine Or.inr ⟨f, found, rfl, ?_, hf, hd⟩
          simp only [Bool.and_eq_true] at hm
          exact hm.1
    · rw [if_neg hm] at hd
      left; simpa using hd.symm

/-- **C73.** A full boundary: the peaks away from the border stay, up to poor ones that the final fit removes (never a
non-removable one), those near it make a model of the neighbourhood that is searched more deeply. -/
theorem c73_boundary (hS : Sane W) {rec : Deeper K} {y : List K} {c d : Cluster K} {j : ℕ}
    (hd : boundary W J rec y c j = .ok d) :
    ∃ (full0 full adj0 adj : Cluster K) (h : Hood K), copyOf W c = .ok full0 ∧ fitted W { justify := true } full0 = .ok full ∧
      (h.near ++ h.other).Perm full.model ∧ h.near.length ≤ 2 ∧
      adj0.model = h.near ∧ deepen W J rec adj0 (decide (h.near ≠ [])) = .ok adj ∧
      (adj.model ++ h.other ≠ [] → Kept (adj.model ++ h.other) d.model) := by
  unfold boundary at hd
  obtain ⟨full0, h0, hd⟩ := bind_ok hd
  obtain ⟨full, hf, hd⟩ := bind_ok hd
  obtain ⟨b, hb, hd⟩ := bind_ok hd
  obtain ⟨h, hh, hd⟩ := bind_ok hd
  obtain ⟨adj0, ha0, hd⟩ := bind_ok hd
  obtain ⟨adj, ha, hd⟩ := bind_ok hd
  obtain ⟨full', hw, hd⟩ := bind_ok hd
  obtain ⟨hs1, hs2, -⟩ := hood_split hh
  obtain ⟨-, -, hm, -⟩ := newCluster_of (Q := fun _ => True) (fun _ _ => trivial) ha0
  obtain ⟨hp, -⟩ := withPeaks_perm hS hw
  refine ⟨full0, full, adj0, adj, h, h0, hf, hs1, hs2, hm, ?_, ?_⟩
  · rw [← ha]
    congr 1
    simp [List.length_pos_iff]
  · intro hne
    have hne' : full'.model ≠ [] := fun h0 => hne (by rw [h0] at hp; exact hp.symm.eq_nil)
    exact (kept_of_perm hp).trans (fitted_kept hS hd hne')

/-- **C73 (finding).** The border of a full boundary is the data point with the *number of the cluster* as index, not the
point just added (which is the first or the last one).  As each cluster has a point at least, that border is never right
of the first point of the cluster.  So if the peaks are not left of their cluster, the peak "near the border" is always
the leftmost one of the cluster, also when it was the last data point that was added. -/
theorem c73_wrong_border {x y dy : List K} {rows : List (ℕ × ℕ)} (hx : x.Pairwise (· < ·)) (hw : Cluster.WF x.length rows)
    {j : ℕ} (hj : j < rows.length) {b : K} (hb : x[j]? = some b) {c : Cluster K} {h : Hood K}
    (hh : hood W x y dy c b = .ok h) (hin : ∀ p ∈ c.model, x.getD (rows.getD j (0, 0)).1 0 ≤ pos p) :
    h.near = c.model.take 1 ∧ h.other = c.model.drop 1 := by
  have hrow : ∀ j (hj : j < rows.length), j ≤ rows[j].1 := by
    intro j
    induction j with
    | zero => intro _; omega
    | succ j ih =>
      intro hj
      have h1 := ih (by omega)
      have h2 := (hw.valid rows[j] (List.getElem_mem _)).1
      have h3 := List.pairwise_iff_getElem.1 hw.ordered j (j + 1) (by omega) hj (by omega)
      omega
  have hle : b ≤ x.getD (rows.getD j (0, 0)).1 0 := by
    have h1 := hrow j hj
    have h2 := hw.valid rows[j] (List.getElem_mem _)
    obtain ⟨hjx, rfl⟩ := List.getElem?_eq_some_iff.1 hb
    rw [List.getD_eq_getElem?_getD (l := rows), List.getElem?_eq_getElem hj, Option.getD_some,
      List.getD_eq_getElem?_getD, List.getElem?_eq_getElem (by omega), Option.getD_some]
    rcases Nat.eq_or_lt_of_le h1 with he | hlt
    · simp only [← he]; exact le_refl _
    · exact le_of_lt (List.pairwise_iff_getElem.1 hx j _ hjx (by omega) hlt)
  have hp : pivot (c.model.map pos) b = 0 := by
    unfold pivot
    cases hm : c.model with
    | nil => simp
    | cons p m =>
      have : b ≤ pos p := hle.trans (hin p (by simp [hm]))
      simp [not_lt.2 this]
  unfold hood at hh
  split at hh
  · simp at hh
  · simp only [Except.ok.injEq] at hh
    subst hh
    simp only [hp, List.length_map]
    cases hm : c.model with
    | nil => simp
    | cons p m =>
      refine ⟨by simp [nearIdx], ?_⟩
      simp only [otherIdx, List.length_cons, List.drop_succ_cons, List.drop_zero]
      have := filterMap_range m
      rw [List.range_eq_range'] at this
      conv_rhs => rw [← this]
      rw [show (0 + 1 : ℕ) = 1 from rfl, show m.length + 1 - 1 = m.length by omega, List.range'_eq_map_range]
      simp [List.filterMap_map, List.range_eq_range', Nat.add_comm 1]

/-- The near and the other peaks. -/
def sides (r : Res (Hood ℚ)) : Option (List (List ℚ) × List (List ℚ)) :=
  match r with
  | .ok h => some (h.near.map Part.pars, h.other.map Part.pars)
  | .error _ => none

/-- A cluster over the points 3..6 with peaks at 4 and 6. -/
def rightCluster : Cluster ℚ :=
  ⟨[dot 7 4 2 true, dot 7 6 1 true], none, [0, 1, 2, 3, 4, 5, 6], [0, 3, 5, 0, 2, 0, 1], [1, 1, 1, 1, 1, 1, 1], 0, 0, 0, 0, [7], some ⟨some 3, 7⟩, 0, false⟩

/-- Instance: clusters 0..2 and 3..6; the last point, 6, has just been added to the second cluster; "near the border" is
the peak at 4.  At the true border, 6, the peak at 6 is near as well. -/
example : sides (hood dotWorld [0, 1, 2, 3, 4, 5, 6] [0, 3, 5, 0, 2, 0, 1] [1, 1, 1, 1, 1, 1, 1] rightCluster 1) =
      some ([[4, 2]], [[6, 1]]) ∧ Cluster.WF 7 [(0, 2), (3, 6)] ∧
    sides (hood dotWorld [0, 1, 2, 3, 4, 5, 6] [0, 3, 5, 0, 2, 0, 1] [1, 1, 1, 1, 1, 1, 1] rightCluster 6) =
      some ([[4, 2], [6, 1]], []) := by
  refine ⟨by decide +kernel, ⟨by simp, by simp, by simp⟩, by decide +kernel⟩

/-- The jobs of the example world. -/
def dotJob (ip : List (Part ℚ)) : Job ℚ :=
  ⟨[0, 1, 2, 3, 4, 5, 6], [0, 3, 5, 0, 2, 0, 1], [1/4, 1/4, 1/4, 1/4, 1/4, 1/4, 1/4], dotHeap.base 0, ip, 1, 0, [7]⟩

/-- A cluster of that job over the points from `a` to `b - 1` with the given peaks. -/
def dotCluster (m : List (Part ℚ)) (a b : ℕ) : Cluster ℚ :=
  ⟨m, some (dotHeap.base 0), (dotJob []).x, (dotJob []).y, (dotJob []).dy, 0, 0, 0, 0, [7], some ⟨some a, b⟩, 0, false⟩

/-- Instances of C73: a join of two clusters, with a peak each, and of one of them with an empty one; a boundary; the
end of a search, with an initial peak that is not worth its price and is pruned, and one that is kept. -/
example :
    shown (joined dotWorld (dotJob []) none (dotJob []).y (0, 2) (3, 6) (dotCluster [dot 7 2 5 true] 0 3) (dotCluster [dot 7 4 2 true] 3 7)) =
      some [(7, [2, 5]), (7, [4, 2])] ∧
    shown (boundary dotWorld (dotJob []) none (dotJob []).y (dotCluster [dot 7 2 5 true] 0 3) 0) = some [(7, [2, 5])] ∧
    shown (finish dotWorld (dotJob [dot 9 3 (1/8) true, dot 9 6 1 true]) true (dotCluster [dot 7 2 5 true] 0 7)) =
      some [(7, [2, 5]), (9, [6, 1])] := by
  refine ⟨?_, ?_, ?_⟩ <;> decide +kernel

/-- **C73.** After the main loop: the initial peaks are put to those found and added back to the data (nothing is lost
here), then the model is pruned, which takes away removable peaks only and only for a better model (given an honest
evaluator, convergent fits and all parameters free, as in C29), and at the top level fitted with the baseline. -/
theorem c73_finish (hS : Sane W) {top : Bool} {c d : Cluster K} (hd : finish W J top c = .ok d) :
    ∃ c1 c2 : Cluster K, c1.model.Perm (J.ip ++ c.model) ∧ c1.baseline = c.baseline ∧ c1.r = c.r ∧ c1.slice = c.slice ∧
      c1.y = List.zipWith (fun a b => b + (J.ip.map (fun p => W.val p a)).sum) c.r c.y ∧
      c2 = { c1 with model := c2.model } ∧ Kept c1.model c2.model ∧
      (Honest (W.pruneEnv c1) → Converges (W.pruneEnv c1) c1.model → (∀ p ∈ c1.model, AllFree p) →
        c2.model = c1.model ∨
        Evaluator.gt ((W.pruneEnv c1).qual [] c2.model 0) ((W.pruneEnv c1).qual [] c1.model 0) = .ok true) ∧
      (top = false → d = c2) ∧ (top = true → fitted (final W) { fitbaseline := true } c2 = .ok d) := by
  unfold finish at hd
  obtain ⟨c1, h1, hd1⟩ := bind_ok hd
  clear hd
  obtain ⟨c2, h2, hd⟩ := bind_ok hd1
  clear hd1
  refine ⟨c1, c2, ?_⟩
  unfold addexternal at h1
  split at h1
  · simp at h1
  · rename_i c' hw
    obtain ⟨hp, e1, e2, e3, e4⟩ := withPeaks_perm hS hw
    simp only [Except.ok.injEq] at h1
    subst h1
    refine ⟨hp, e1, e4, e2, ?_, ?_⟩
    · simp only [e3, e4]; rfl
    · have hfin : (top = false → d = c2) ∧ (top = true → fitted (final W) { fitbaseline := true } c2 = .ok d) := by
        cases top with
        | true =>
          simp only [if_true] at hd
          exact ⟨fun h => by simp at h, fun _ => hd⟩
        | false =>
          simp only [Bool.false_eq_true, if_false] at hd
          exact ⟨fun _ => by simpa [pure, Except.pure] using hd.symm, fun h => by simp at h⟩
      unfold pruned at h2
      generalize ({ c' with y := List.zipWith (fun a b => b + valueAt W.val J.ip a) c'.r c'.y } : Cluster K) = c1 at h2
      split at h2
      · simp only [Except.ok.injEq] at h2
        subst h2
        exact ⟨rfl, Kept.refl _, fun _ _ _ => Or.inl rfl, hfin⟩
      · split at h2
        · simp at h2
        · simp only at h2
          split at h2
          · simp at h2
          · rename_i mc _
            split at h2
            · simp at h2
            · rename_i m hpr
              simp only [Except.ok.injEq] at h2
              subst h2
              obtain ⟨k1, k2⟩ := c29_prune_keeps (W.pruneEnv c1) (hS.ptame c1) W.pick mc c1.model
              rw [hpr] at k1 k2
              refine ⟨rfl, ⟨k1, k2⟩, fun hH hC hA => ?_, hfin⟩
              have := c29_prune_improves (W.pruneEnv c1) (hS.ptame c1) hH W.pick mc c1.model hC hA
              rw [hpr] at this
              exact this

end Verif.Parts.Extract
