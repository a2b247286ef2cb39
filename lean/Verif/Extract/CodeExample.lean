import Verif.Extract.CodeProps
import Verif.Extract.Join

/-!
# Concrete numerics for C95

Peaks of one point, estimated where the data are largest; an optimiser that stays where it is.
-/

set_option linter.unusedSectionVars false

namespace Verif.Parts.Extract

open Verif.Py Verif.PeakList Verif.Parts.ModelCluster Verif.Extraction

/-- A peak of one point: position, height. -/
def spotAt (p : List ℚ) (a : ℚ) : ℚ := if a = p.getD 0 0 then p.getD 1 0 else 0

def spotOwner (id : ℕ) : Owner ℚ :=
  ⟨id, 2, [("position", 0), ("height", 1)], fun p l => l.map (spotAt p), fun _ _ _ => [], fun p _ _ => .ok p⟩

def spotVal (p : Part ℚ) (a : ℚ) : ℚ := if p.owner.id = 0 then 0 else spotAt p.pars a

/-- The highest point, if above one half. -/
def highest (r y : List ℚ) : ℚ × ℚ :=
  (List.zip r y).foldl (fun (b : ℚ × ℚ) p => if b.2 < p.2 then p else b) (0, 1/2)

def spotGuess (_ : Owner ℚ) (r y : List ℚ) : Res (List ℚ) :=
  if 1/2 < (highest r y).2 then .ok [(highest r y).1, (highest r y).2] else .error .estimation

/-- The free parameters of a part (as many as there are flags). -/
def stayAt (p : Part ℚ) : List ℚ := (p.compress ++ List.replicate (p.npars false) 0).take (p.npars false)

/-- Converged if the functions accept the parameters. -/
def flagOf : Res Unit → ℤ
  | .ok _ => 1
  | .error _ => 5

/-- The identity matrix. -/
def eye (n : ℕ) : List (List ℚ) := (List.range n).map (fun i => (List.range n).map (fun j => if i = j then 1 else 0))

/-- An optimiser that stays, and its covariance. -/
def stayCov (cv : Option (List (List ℚ))) (m : List (Part ℚ)) : Lsq ℚ := ⟨[], .done (m.flatMap stayAt) (flagOf (cleanup m).1) cv []⟩

def stay (m : List (Part ℚ)) : Lsq ℚ := stayCov (some (eye (npars m false))) m

def spots (k : Evaluator.Kind) : Numerics ℚ where
  as := mergeAs
  pick := pickBest
  trunc := id
  val := spotVal
  sc p _ s := .ok (p.pars.set 1 (s * p.pars.getD 1 0))
  kind _ := k
  func := spotOwner
  guess := spotGuess
  opt _ m := (stay m, stay m)

theorem spots_scales (k : Evaluator.Kind) : Scales (spots k).sc := by
  intro p x s v h
  simp only [spots, Except.ok.injEq] at h
  rw [← h, List.length_set]

theorem spots_sorting (k : Evaluator.Kind) : Sorting (spots k) := ⟨mergeAs_sorts, pickBest_one, spots_scales .aic⟩

theorem spots_guesses (k : Evaluator.Kind) : Guesses (spots k) := by
  intro f r y
  have h : (spots k).guess ((spots k).func f) r y = spotGuess (spotOwner f) r y := rfl
  rw [h]
  unfold spotGuess
  split
  · exact Or.inr ⟨_, _, rfl, rfl, rfl⟩
  · exact Or.inl rfl

theorem stayAt_length (p : Part ℚ) : (stayAt p).length = p.npars false := by
  unfold stayAt
  simp

theorem assign_select : ∀ (a : List ℚ) (f : List Bool) (z : List ℚ) (n : ℕ), f.count true ≤ n →
    assignMask a f ((selectMask a f ++ z).take n) = a
  | [], f, z, n, _ => by simp [assignMask]
  | a :: as, [], z, n, _ => by simp [assignMask]
  | a :: as, false :: f, z, n, h => by
    simp only [selectMask]
    have := assign_select as f z n (by simpa using h)
    generalize hv : (selectMask as f ++ z).take n = v at this
    unfold assignMask
    rw [this]
  | a :: as, true :: f, z, n, h => by
    simp only [List.count_cons_self] at h
    obtain ⟨n, rfl⟩ : ∃ k, n = k + 1 := ⟨n - 1, by omega⟩
    simp only [selectMask, List.cons_append, List.take_succ_cons, assignMask]
    rw [assign_select as f z n (by omega)]

theorem update_stay (p : Part ℚ) (rest : List ℚ) :
    p.update ⟨fun _ => false, id⟩ (stayAt p ++ rest) = (.ok (p.npars false), p) := by
  have ht : (stayAt p ++ rest).take (p.npars false) = stayAt p := by
    rw [← stayAt_length p, List.take_left]
  have hm : (stayAt p).map (fun v => if p.isInt then id v else v) = stayAt p := by
    conv_rhs => rw [← List.map_id (stayAt p)]
    apply List.map_congr_left
    intro v _
    split <;> rfl
  unfold Part.update
  simp only [ht, hm]
  rw [if_pos (stayAt_length p)]
  have : assignMask p.pars p.free (stayAt p) = p.pars := by
    unfold stayAt Part.compress
    exact assign_select p.pars p.free _ _ (le_refl _)
  rw [this]

theorem pack_stay : ∀ m : List (Part ℚ), packLoop ⟨fun _ => false, id⟩ m (m.flatMap stayAt) = (.ok (), m)
  | [] => rfl
  | p :: m => by
    rw [List.flatMap_cons]
    unfold packLoop
    rw [update_stay]
    simp only
    rw [← stayAt_length p, List.drop_left, pack_stay m]

/-- The fit that stays. -/
theorem stayCov_fit (cv : Option (List (List ℚ))) (m : List (Part ℚ)) (hm : m ≠ []) (n : ℕ) :
    Parts.fit ⟨fun _ => false, id⟩ m n false (stayCov cv m) (stayCov cv m) =
      if n ≤ (m.flatMap Part.compress).length then (.error .fit, m)
      else if (m.flatMap Part.compress).length = 0 then (.ok none, m)
      else match cleanup m with
        | (.error _, _) => (.error .fit, m)
        | (.ok _, m') => (.ok none, m') := by
  have hr : runLsq ⟨fun _ => false, id⟩ m (stayCov cv m) = (.ok (m.flatMap stayAt, flagOf (cleanup m).1, cv, []), m) := rfl
  unfold Parts.fit unpack
  rw [if_neg hm]
  simp only [hr]
  split
  · rfl
  split
  · rfl
  have hp : pack ⟨fun _ => false, id⟩ m (m.flatMap stayAt) = (.ok (), m) := by
    unfold pack
    simp [pack_stay]
  unfold finishFit
  rw [hp]
  simp only
  generalize cleanup m = C
  obtain ⟨C1, C2⟩ := C
  cases C1 with
  | error e => simp [flagOf]
  | ok u => simp [flagOf]

theorem stay_fit (m : List (Part ℚ)) (hm : m ≠ []) (n : ℕ) :
    Parts.fit ⟨fun _ => false, id⟩ m n false (stay m) (stay m) =
      if n ≤ (m.flatMap Part.compress).length then (.error .fit, m)
      else if (m.flatMap Part.compress).length = 0 then (.ok none, m)
      else match cleanup m with
        | (.error _, _) => (.error .fit, m)
        | (.ok _, m') => (.ok none, m') := stayCov_fit _ m hm n

theorem stay_fits (N : Numerics ℚ) (ht : N.trunc = id) (ho : ∀ c m, N.opt c m = (stay m, stay m)) : Fits N := by
  intro c m e hm h
  rw [ht, ho, stay_fit m hm] at h
  split at h
  · simpa using h.symm
  split at h
  · simp at h
  split at h
  · simpa using h.symm
  · simp at h

theorem spots_fits (k : Evaluator.Kind) : Fits (spots k) := stay_fits _ rfl (fun _ _ => rfl)

/-- Instance of `c95_search`: the whole search, with AIC and with AICc — the latter finds two peaks only, as its penalty
is larger for few data. -/
example := c95_search (H := dotHeap) (D := dotDef) (spots .aic) (spots_sorting _) (spots_guesses _) (spots_fits _) rfl (dotVars_usable _ (Or.inl rfl))

example : shown (extractSingle (codeWorld (spots .aic)) dotHeap dotDef 3 1 (dotVars none none)) =
      some [(7, [1, 3]), (7, [2, 5]), (7, [4, 2]), (7, [6, 1])] ∧
    shown (extractSingle (codeWorld (spots .aicc)) dotHeap dotDef 3 1 (dotVars none none)) =
      some [(7, [1, 3]), (7, [2, 5])] := by
  constructor <;> decide +kernel

/-- As `spots .aicc`, but the covariance is always singular. -/
def flats : Numerics ℚ := { spots .aicc with opt := fun _ m => (stayCov none m, stayCov none m) }

theorem flats_lsq (c : Cluster ℚ) (m : List (Part ℚ)) : (codeEnv flats c).lsq m = (codeEnv (spots .aicc) c).lsq m := by
  show lsqOf ⟨fun _ => false, id⟩ c.r.length false (stayCov none) (stayCov none) m = lsqOf ⟨fun _ => false, id⟩ c.r.length false stay stay m
  unfold lsqOf
  by_cases hm : m = []
  · subst hm; rfl
  · rw [stayCov_fit none m hm, stay_fit m hm]

/-- **C95 (finding).** The TypeError does occur: a search that finds two peaks, all its fits being the same, loses them if
the covariance of the last fit is singular. -/
theorem c95_singular :
    Sorting flats ∧ Guesses flats ∧ Fits flats ∧ (∀ c m, (codeEnv flats c).lsq m = (codeEnv (spots .aicc) c).lsq m) ∧
    Usable dotDef dotHeap (dotVars none none) [0, 1, 2, 3, 4, 5, 6] [0, 3, 5, 0, 2, 0, 1] ∧
    shown (extractSingle (codeWorld (spots .aicc)) dotHeap dotDef 3 1 (dotVars none none)) = some [(7, [1, 3]), (7, [2, 5])] ∧
    raised (extractSingle (codeWorld flats) dotHeap dotDef 3 1 (dotVars none none)) = some .type := by
  refine ⟨⟨mergeAs_sorts, pickBest_one, spots_scales .aic⟩, spots_guesses .aicc, ?_, flats_lsq, dotVars_usable _ (Or.inl rfl), by decide +kernel, by decide +kernel⟩
  intro c m e hm h
  have h' : (Parts.fit ⟨fun _ => false, id⟩ m c.r.length false (stayCov none m) (stayCov none m)).1 = .error e := h
  rw [stayCov_fit none m hm] at h'
  split at h'
  · simpa using h'.symm
  split at h'
  · simp at h'
  split at h'
  · simpa using h'.symm
  · simp at h'

/-- Instances of `c95_sane`, `c95_estimates`, `c95_calm`, `c95_honest`. -/
example : Sane (codeWorld (spots .aicc)) ∧ Estimates (codeWorld (spots .aicc)) ∧ Calm (codeWorld (spots .aicc)) :=
  ⟨c95_sane _ (spots_sorting _), (c95_estimates _).1, c95_calm _ (spots_sorting _) (spots_guesses _) (spots_fits _)⟩

/-- A spot. -/
def spot (a h : ℚ) : Part ℚ := ⟨spotOwner 7, [a, h], [true, true], true, false, false⟩

/-- Points 1 to 5 of six. -/
def spotCluster (m : List (Part ℚ)) : Cluster ℚ :=
  ⟨m, none, [0, 1, 2, 3, 4, 5], [9, 0, 4, 0, 0, 1], [1, 1, 1/2, 1, 1, 1], 0, 0, 0, 0, [7], some ⟨some 1, 6⟩, 0, false⟩

theorem spot_pointwise (m : List (Part ℚ)) (h : ∀ p ∈ m, p.owner = spotOwner 7) : PointwiseBy spotVal m := by
  intro p hp l
  have h0 := h p hp
  unfold spotVal
  rw [h0]
  rfl

/-- Instance of `c95_quality`: a peak of height 3 where the data are 4 ± 1/2 and nothing at 5, where they are 1 ± 1. -/
example : quality .aic (spotCluster [spot 2 3]) false 0 = .ok (rate (spots .aic) (spotCluster []) [spot 2 3] none 0) ∧
    (rate (spots .aic) (spotCluster []) [spot 2 3] none 0).stat = some (cost (spots .aic) (spotCluster []) [spot 2 3] none) ∧
    cost (spots .aic) (spotCluster []) [spot 2 3] none = 4 + 1 + 2 * 2 := by
  have := c95_quality (spots .aic) (c := spotCluster []) rfl [spot 2 3] none (spot_pointwise _ (by simp [spot])) 0 (by decide)
  exact ⟨this.1, this.2 ⟨rfl, rfl⟩, by decide +kernel⟩

/-- The stat of a fit. -/
def statOfFit (r : Res (Option (Evaluator.Ev ℚ))) : Option ℚ :=
  match r with
  | .ok (some q) => q.stat
  | _ => none

/-- Instance of `c95_fit`: the clean-up removes a peak outside the data, the cost falls from 13 to 9. -/
example := c95_fit (spots .aic) (c := spotCluster [spot 2 3, spot 7 4]) ⟨rfl, rfl⟩ (by simp [spotCluster]) {}

example : statOfFit (ModelCluster.fit (codeEnv (spots .aic) (spotCluster [spot 2 3, spot 7 4])) {} (spotCluster [spot 2 3, spot 7 4])).1 = some 9 ∧
    cost (spots .aic) (spotCluster [spot 2 3, spot 7 4]) [spot 2 3, spot 7 4] none = 13 := by
  constructor <;> decide +kernel

/-- Instance of `c95_growth`, and both answers: five points, one peak of two free parameters.  Two more cost 4 with AIC, less
than the deviation 5 of a peak of height 3 but not less than the deviation 1 of one of height 4; with AICc four parameters need
six points. -/
example := c95_growth (spots .aic) (c := spotCluster []) ⟨rfl, rfl⟩ (by simp [spotCluster]) [spot 2 3] none

example : (codeEnv (spots .aic) (spotCluster [])).growth [spot 2 3] none = true ∧
    (codeEnv (spots .aic) (spotCluster [])).growth [spot 2 4] none = false ∧
    (codeEnv (spots .aicc) (spotCluster [])).growth [spot 2 3] none = false := by
  refine ⟨?_, ?_, ?_⟩ <;> decide +kernel

/-! ### Pruning and augmenting -/

/-- Peaks that are the same everywhere, and never below one. -/
def planeVal (p : Part ℚ) (_ : ℚ) : ℚ := 1 + (p.pars.getD 1 0) ^ 2

def planes : Numerics ℚ := { spots .aic with val := planeVal, guess := fun _ _ _ => .error .estimation }

/-- Twelve points with the value 2. -/
def planeCluster (m : List (Part ℚ)) : Cluster ℚ :=
  ⟨m, none, [0, 1, 2, 3, 4, 5, 6, 7, 8, 9, 10, 11], List.replicate 12 2, List.replicate 12 1, 0, 0, 0, 0, [7], some ⟨none, 12⟩, 0, false⟩

theorem clean_none (below : Part ℚ → Bool) (hb : ∀ p, below p = false) (r0 r1 : ℚ) (m : List (Part ℚ)) :
    (cleanfit (fun _ => false) r0 r1 below m).2 = m := by
  rw [cleanfit_eq]
  have h : ∀ i, inRemove (fun _ => false) r0 r1 below m i = false := by
    intro i
    unfold inRemove
    simp only [hb, Bool.and_false]
    have h1 : ∀ o : Option (Part ℚ), (o.map (fun _ => false)).getD false = false := by intro o; cases o <;> rfl
    have h2 : ∀ o : Option (Part ℚ), (o.map (fun p => p.pars.any (fun _ => false))).getD false = false := by
      intro o; cases o <;> simp
    simp only [h1, h2]
    simp
  rw [List.filter_eq_self.2 (by intro x _; rw [h]; rfl)]
  simp

theorem plane_feeble (c : Cluster ℚ) (x e : ℚ) (r es : List ℚ) (hr : inSlice c c.r = x :: r) (he : inSlice c c.err = e :: es)
    (h1 : e = 1) (p : Part ℚ) : feeble planes c p = false := by
  unfold feeble
  rw [hr, he]
  simp only [List.zipWith_cons_cons, List.all_cons]
  have : ¬ (planes.val p x - e < 0) := by
    show ¬ (1 + (p.pars.getD 1 0) ^ 2 - e < 0)
    rw [h1]
    have := sq_nonneg (p.pars.getD 1 0)
    linarith
  simp [this]

theorem select_length : ∀ (a : List ℚ) (f : List Bool), (selectMask a f).length ≤ f.count true
  | [], f => by unfold selectMask; simp
  | _ :: _, [] => by simp [selectMask]
  | a :: as, true :: f => by simpa [selectMask] using select_length as f
  | a :: as, false :: f => by simpa [selectMask] using select_length as f

theorem compress_length : ∀ m : List (Part ℚ), (m.flatMap Part.compress).length ≤ npars m false
  | [] => by simp
  | p :: m => by
    have h1 := compress_length m
    have h2 := select_length p.pars p.free
    unfold npars at h1 ⊢
    simp only [List.flatMap_cons, List.length_append, List.map_cons, List.sum_cons]
    have h3 : p.compress.length ≤ p.npars false := by simpa [Part.npars, Part.compress] using h2
    omega

theorem stays_put : ∀ m : List (Part ℚ), (∀ p ∈ m, p.owner = spotOwner 7) → cleanup m = (.ok (), m)
  | [], _ => rfl
  | p :: m, h => by
    have h0 := h p List.mem_cons_self
    unfold cleanup
    have : p.owner.transform p.pars (some "internal") (some "internal") = .ok p.pars := by rw [h0]; rfl
    rw [this]
    simp only
    rw [stays_put m (fun q hq => h q (List.mem_cons_of_mem _ hq))]

/-- Peaks of the kind of `l`, not too many: the fit stays, nothing is cleaned up. -/
theorem plane_lsq (c : Cluster ℚ) {l ps : List (Part ℚ)} (hne : ps ≠ []) (hsub : (ps.map key).Subperm (l.map key))
    (hl : ∀ p ∈ l, p.owner = spotOwner 7 ∧ p.free = [true, true]) (hn : 2 * l.length < c.r.length) :
    (codeEnv planes c).lsq ps = (.ok (), ps) := by
  have hk : ∀ p ∈ ps, p.owner = spotOwner 7 ∧ p.free = [true, true] := by
    intro p hp
    obtain ⟨q, hq, he⟩ := List.mem_map.1 (hsub.subset (List.mem_map_of_mem hp))
    unfold key at he
    simp only [Prod.mk.injEq] at he
    rw [← he.1, ← he.2.1]
    exact hl q hq
  have hlen : ps.length ≤ l.length := by simpa using hsub.length_le
  have hnp : npars ps false = 2 * ps.length := by
    clear hne hsub hlen
    induction ps with
    | nil => rfl
    | cons p ps ih =>
      have h1 := ih (fun q hq => hk q (List.mem_cons_of_mem _ hq))
      have h2 : p.npars false = 2 := by simp [Part.npars, (hk p List.mem_cons_self).2]
      unfold npars at h1 ⊢
      simp only [List.map_cons, List.sum_cons, List.length_cons]
      omega
  have hc := compress_length ps
  show lsqOf ⟨fun _ => false, id⟩ c.r.length false stay stay ps = _
  unfold lsqOf
  rw [stay_fit ps hne, if_neg (by omega)]
  split
  · rfl
  · rw [stays_put ps (fun p hp => (hk p hp).1)]
    rfl

theorem plane_converges (m0 l : List (Part ℚ)) (hl : ∀ p ∈ l, p.owner = spotOwner 7 ∧ p.free = [true, true])
    (hn : l.length < 6) : EConverges (codeEnv planes (planeCluster m0)) l := by
  intro ps bl hne hsub
  have hL := plane_lsq (planeCluster m0) hne hsub hl (by show 2 * l.length < 12; omega)
  rw [hL]
  refine ⟨rfl, ?_⟩
  have hp : (sort mergeAs false pos ps).Perm ps := (c37_sort mergeAs_sorts false pos ps).1
  have hcl : (codeEnv planes (planeCluster m0)).clean (sort mergeAs false pos ps) = sort mergeAs false pos ps :=
    clean_none _ (plane_feeble (planeCluster m0) 0 1 _ _ rfl rfl rfl) _ _ _
  have hq := codeEnv_perm planes (planeCluster m0) _ _ bl hp
  show Evaluator.lt ((codeEnv planes (planeCluster m0)).quality ((codeEnv planes (planeCluster m0)).clean
    (sort mergeAs false pos ps)) bl) _ = _
  rw [hcl, hq]
  exact notLt_refl (codeEnv_comparable _ _) _ _

theorem plane_pconverges (m0 l : List (Part ℚ)) (hl : ∀ p ∈ l, p.owner = spotOwner 7 ∧ p.free = [true, true])
    (hn : l.length < 6) : Converges ((codeWorld planes).pruneEnv (planeCluster m0)) l := by
  intro out ps bl hne hsub
  have hr : inSlice (pruneCluster planes (planeCluster m0) out) (pruneCluster planes (planeCluster m0) out).r =
      [0, 1, 2, 3, 4, 5, 6, 7, 8, 9, 10, 11] := rfl
  have hL := plane_lsq (pruneCluster planes (planeCluster m0) out) hne hsub hl (by show 2 * l.length < 12; omega)
  have hL' : (((codeWorld planes).pruneEnv (planeCluster m0)).env out).lsq ps = (.ok (), ps) := hL
  rw [hL']
  refine ⟨rfl, ?_⟩
  have hp : (sort mergeAs false pos ps).Perm ps := (c37_sort mergeAs_sorts false pos ps).1
  have hcl : (codeEnv planes (pruneCluster planes (planeCluster m0) out)).clean (sort mergeAs false pos ps) = sort mergeAs false pos ps :=
    clean_none _ (plane_feeble _ 0 1 _ _ hr rfl rfl) _ _ _
  have hq := codeEnv_perm planes (pruneCluster planes (planeCluster m0) out) _ _ none hp
  show Evaluator.lt (rate planes (pruneCluster planes (planeCluster m0) out)
    ((codeEnv planes (pruneCluster planes (planeCluster m0) out)).clean (sort mergeAs false pos ps)) none 0)
    (rate planes (pruneCluster planes (planeCluster m0) out) ps none 0) = _
  rw [hcl]
  have hq' : rate planes (pruneCluster planes (planeCluster m0) out) (sort mergeAs false pos ps) none 0 =
    rate planes (pruneCluster planes (planeCluster m0) out) ps none 0 := hq
  rw [hq']
  exact notLt_refl (codeEnv_comparable planes (pruneCluster planes (planeCluster m0) out)) ps none

theorem planes_sorting : Sorting planes := ⟨mergeAs_sorts, pickBest_one, spots_scales .aic⟩

/-- Three planes. -/
def threePlanes : List (Part ℚ) := [spot 3 0, spot 5 0, spot 8 0]

theorem threePlanes_kind : ∀ p ∈ threePlanes, p.owner = spotOwner 7 ∧ p.free = [true, true] := by
  intro p hp
  simp only [threePlanes, List.mem_cons, List.not_mem_nil, or_false] at hp
  rcases hp with rfl | rfl | rfl <;> exact ⟨rfl, rfl⟩

/-- Instance of `c95_prune`: of three planes, one is removed. -/
example := c95_prune planes planes_sorting (c := planeCluster threePlanes) ⟨rfl, rfl⟩ (planeCluster threePlanes) threePlanes
  (plane_pconverges _ _ threePlanes_kind (by decide)) (by
    intro p hp
    obtain ⟨h1, h2⟩ := threePlanes_kind p hp
    unfold AllFree
    rw [h1, h2]
    rfl)

example : posOf (prune ((codeWorld planes).pruneEnv (planeCluster threePlanes)) pickBest (planeCluster threePlanes) threePlanes).2 = [5, 8] ∧
    cost planes (planeCluster threePlanes) threePlanes none = 12 + 12 ∧
    cost planes (planeCluster threePlanes) [spot 5 0, spot 8 0] none = 8 := by
  refine ⟨?_, ?_, ?_⟩ <;> decide +kernel

/-- Instance of `c95_augment`: to one plane, one of two others is added. -/
example := c95_augment planes planes_sorting pickBest_picks (c := planeCluster [spot 3 0]) ⟨rfl, rfl⟩ [spot 5 0, spot 8 0]
  (plane_converges _ _ threePlanes_kind (by decide)) (by
    intro p hp
    simp only [planeCluster, List.cons_append, List.nil_append, List.mem_cons, List.not_mem_nil, or_false] at hp
    rcases hp with rfl | rfl | rfl <;> rfl) rfl

example : posOf (augment (codeEnv planes (planeCluster [spot 3 0])) pickBest (planeCluster [spot 3 0]) [spot 5 0, spot 8 0]).2.model = [3, 5] := by
  decide +kernel

/-- Instance of `c95_shift`. -/
example : 0 ≤ addpars threePlanes 1 := c95_shift threePlanes 1 (spot 5 0) rfl (by decide)

/-- Instance of `c95_prune_start`. -/
example := c95_prune_start planes (c := planeCluster threePlanes) ⟨rfl, rfl⟩ threePlanes 0

/-- Instance of `c95_fits`: an optimiser that moves every free parameter to 1, then gives up on functions that do not accept
everything. -/
noncomputable def ones (m : List (Part ℚ)) : Lsq ℚ :=
  letI := Classical.propDecidable
  ⟨[List.replicate (npars m false) 1], .done (List.replicate (npars m false) 1)
    (if ∀ p ∈ m, ∀ v, v.length = p.pars.length → ∃ q, p.owner.transform v (some "internal") (some "internal") = .ok q then 1 else 5) none []⟩

example : Fits { spots .aic with opt := fun _ m => (ones m, ones m) } := by
  refine c95_fits _ (fun c m _ => ⟨⟨?_, ?_⟩, ?_⟩) (fun c m _ h => ?_)
  · intro v hv
    have : v = List.replicate (npars m false) 1 := by simpa [ones] using hv
    rw [this]; simp
  · intro x ier cv f h
    simp only [ones, Outcome.done.injEq] at h
    rw [← h.1]; simp
  · intro x ier cv f h hi
    simp only [ones, Outcome.done.injEq] at h
    by_contra hno
    rw [if_neg hno] at h
    rw [← h.2.1] at hi
    simp at hi
  · simp [ones] at h

/-! ### The ValueError does occur -/

/-- A function whose value does not depend on its only parameter, the position. -/
def ridgeOwner (id : ℕ) : Owner ℚ :=
  ⟨id, 1, [("position", 0)], fun _ l => l.map (fun _ => 7/2), fun _ _ _ => [], fun p _ _ => .ok p⟩

def ridgeVal (p : Part ℚ) (_ : ℚ) : ℚ := if p.owner.id = 0 then 0 else 7/2

/-- All free parameters at 3/2. -/
def driftTo (m : List (Part ℚ)) : List ℚ := List.replicate (npars m false) (3/2)

/-- An optimiser that moves every free parameter to 3/2. -/
def drift (m : List (Part ℚ)) : Lsq ℚ :=
  ⟨[], .done (driftTo m) (flagOf (cleanup (pack ⟨fun _ => false, id⟩ m (driftTo m)).2).1) none []⟩

/-- Peaks are estimated at the last point of the cluster, so within the data. -/
def ridges : Numerics ℚ where
  as := mergeAs
  pick := pickBest
  trunc := id
  val := ridgeVal
  sc p _ _ := .ok p.pars
  kind _ := .aic
  func := ridgeOwner
  guess _ r _ := .ok [r.getLastD 0]
  opt _ m := (drift m, drift m)

theorem ridges_sorting : Sorting ridges := ⟨mergeAs_sorts, pickBest_one, by intro p x s v h; simp only [ridges, Except.ok.injEq] at h; rw [h]⟩

theorem ridges_guesses : Guesses ridges := fun _ _ _ => Or.inr ⟨_, _, rfl, rfl, rfl⟩

theorem ridges_fits : Fits ridges := by
  intro c m e hm h
  obtain ⟨ps', hp, -⟩ := pack_ok id m (driftTo m) (by simp [driftTo])
  have hr : runLsq ⟨fun _ => false, id⟩ m (drift m) =
      (.ok (driftTo m, flagOf (cleanup (pack ⟨fun _ => false, id⟩ m (driftTo m)).2).1, none, []), m) := rfl
  have h' : (Parts.fit ⟨fun _ => false, id⟩ m c.r.length false (drift m) (drift m)).1 = .error e := h
  unfold Parts.fit unpack at h'
  rw [if_neg hm] at h'
  simp only [hr] at h'
  split at h'
  · simpa using h'.symm
  split at h'
  · simp at h'
  unfold finishFit at h'
  rw [hp] at h'
  simp only at h'
  generalize cleanup ps' = C at h'
  obtain ⟨C1, C2⟩ := C
  cases C1 with
  | error e => simpa [flagOf] using h'.symm
  | ok u => simp [flagOf] at h'

/-- **C95 (finding).** The ValueError of `c95_search` does occur, although the data are sensible, every peak is estimated
within its cluster and the fits end as they should: two joined peaks that the optimiser has moved left of the
cluster that reaches the end of the data, and that still matter there, are enough. -/
theorem c95_stray :
    Sorting ridges ∧ Guesses ridges ∧ Fits ridges ∧
    (∀ c f p, c.funcs = [f] → guessed ridges c = .ok (some p) → inSlice c c.r ≠ [] → pos p ∈ inSlice c c.r) ∧
    Usable dotDef dotHeap strayVars [0, 1, 2, 3, 4, 5, 6, 7, 8, 9] [0, 0, 0, 0, 0, 9, 7, 8, 6, 5] ∧
    raised (extractSingle (codeWorld ridges) dotHeap dotDef 3 1 strayVars) = some .value := by
  refine ⟨ridges_sorting, ridges_guesses, ridges_fits, ?_, c85_stray.2.1, by decide +kernel⟩
  intro c f p hf hg hne
  have hg' : guessed ridges c = .ok (some ⟨ridgeOwner f, [(inSlice c c.r).getLastD 0], [true], true, false, false⟩) := by
    unfold guessed
    rw [hf]
    rfl
  rw [hg'] at hg
  simp only [Except.ok.injEq, Option.some.injEq] at hg
  rw [← hg]
  have : pos (⟨ridgeOwner f, [(inSlice c c.r).getLastD 0], [true], true, false, false⟩ : Part ℚ) = (inSlice c c.r).getLastD 0 := rfl
  rw [this, List.getLastD_eq_getLast?, List.getLast?_eq_getLast_of_ne_nil hne]
  exact List.getLast_mem hne

end Verif.Parts.Extract
