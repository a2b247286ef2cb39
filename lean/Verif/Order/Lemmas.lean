import Verif.PdfExtract.Example

/-!
# Lemmas for C108: the search uses the initial peaks by their sum, and when they are put back
-/

set_option linter.unusedSectionVars false

namespace Verif.Parts.Order

open Verif.Py Verif.PeakList Verif.Extraction Verif.Pdf Verif.Parts.Extract Verif.Parts.ModelCluster Verif.Parts.PdfExtract

variable {K : Type} [Field K] [LinearOrder K] [IsStrictOrderedRing K]

/-! ### Nothing else in the search looks at them -/

variable (W : World K) (J : Job K) (ip : List (Part K)) (rec : Deeper K) (y : List K)

theorem newCluster_ip (m : List (Part K)) (bl : Option (Part K)) (r y e : List K) (s : Option Slice) :
    newCluster W { J with ip := ip } m bl r y e s = newCluster W J m bl r y e s := rfl

theorem pruned_ip (c : Cluster K) : pruned W { J with ip := ip } c = pruned W J c := rfl

theorem deepen_ip (c : Cluster K) (must : Bool) : deepen W { J with ip := ip } rec c must = deepen W J rec c must := rfl

theorem boundary_ip (c : Cluster K) (j : ℕ) : boundary W { J with ip := ip } rec y c j = boundary W J rec y c j := rfl

theorem joined_ip (cl cr : ℕ × ℕ) (m1 m2 : Cluster K) : joined W { J with ip := ip } rec y cl cr m1 m2 = joined W J rec y cl cr m1 m2 := rfl

theorem joinLoop_ip (rows : List (ℕ × ℕ)) : ∀ (l : List ℕ) (ms : List (Cluster K)),
    joinLoop W { J with ip := ip } rec y rows l ms = joinLoop W J rec y rows l ms
  | [], _ => rfl
  | idx :: rest, ms => by
    unfold joinLoop
    simp only [joined_ip, joinLoop_ip rows rest]

theorem update_ip (s : Cluster.State K) (last : ℕ) (ms : List (Cluster K)) : update W { J with ip := ip } y s last ms = update W J y s last ms := rfl

theorem atBoundary_ip (s : Cluster.State K) (last : ℕ) (ms : List (Cluster K)) :
    atBoundary W { J with ip := ip } rec y s last ms = atBoundary W J rec y s last ms := by
  unfold atBoundary
  simp only [boundary_ip]

theorem iteration_ip (mp : ℕ) (s : Cluster.State K) (ms : List (Cluster K)) :
    iteration W { J with ip := ip } rec y mp s ms = iteration W J rec y mp s ms := by
  unfold iteration
  simp only [update_ip, atBoundary_ip, joinLoop_ip]

theorem mainLoop_ip (mp : ℕ) : ∀ (n : ℕ) (s : Cluster.State K) (ms : List (Cluster K)),
    mainLoop W { J with ip := ip } rec y mp n s ms = mainLoop W J rec y mp n s ms
  | 0, _, _ => rfl
  | n + 1, s, ms => by
    unfold mainLoop
    simp only [iteration_ip, mainLoop_ip mp n]

/-! ### The sum and the sorted list do not depend on the order -/

theorem valueAt_perm {a b : List (Part K)} (h : a.Perm b) (val : Part K → K → K) (x : K) : valueAt val a x = valueAt val b x :=
  (h.map _).sum_eq

/-- Two sorted lists that agree on the elements of each key. -/
theorem sorted_unique {α : Type} (key : α → K) : ∀ {a b : List α}, a.Pairwise (fun p q => key p ≤ key q) →
    b.Pairwise (fun p q => key p ≤ key q) → (∀ v, a.filter (fun p => decide (key p = v)) = b.filter (fun p => decide (key p = v))) → a = b
  | [], [], _, _, _ => rfl
  | [], q :: b, _, _, h => by have := h (key q); simp at this
  | p :: a, [], _, _, h => by have := h (key p); simp at this
  | p :: a, q :: b, ha, hb, h => by
    have hpq : key p = key q := by
      refine le_antisymm ?_ ?_
      · have hm : q ∈ (p :: a).filter (fun r => decide (key r = key q)) := by rw [h]; simp
        rcases List.mem_cons.1 (List.mem_filter.1 hm).1 with h1 | h1
        · rw [h1]
        · exact (List.pairwise_cons.1 ha).1 q h1
      · have hm : p ∈ (q :: b).filter (fun r => decide (key r = key p)) := by rw [← h]; simp
        rcases List.mem_cons.1 (List.mem_filter.1 hm).1 with h1 | h1
        · rw [h1]
        · exact (List.pairwise_cons.1 hb).1 p h1
    have h0 := h (key p)
    rw [List.filter_cons_of_pos (by simp), List.filter_cons_of_pos (by simp [hpq]), List.cons.injEq] at h0
    obtain ⟨rfl, -⟩ := h0
    rw [sorted_unique key (List.pairwise_cons.1 ha).2 (List.pairwise_cons.1 hb).2 ?_]
    intro v
    have hv := h v
    by_cases hpv : key p = v
    · rw [List.filter_cons_of_pos (by simp [hpv]), List.filter_cons_of_pos (by simp [hpv]), List.cons.injEq] at hv
      exact hv.2
    · rw [List.filter_cons_of_neg (by simp [hpv]), List.filter_cons_of_neg (by simp [hpv])] at hv
      exact hv

/-- The order of equal keys is kept. -/
def Stable (as : List K → List ℕ) : Prop :=
  ∀ keys : List K, (as keys).Pairwise (fun i j => keys[i]? = keys[j]? → i < j)

/-- A stable sort keeps the elements of each key in order. -/
theorem sort_filter {as : List K → List ℕ} (hs : SortsKeys as) (hst : Stable as) (key : Part K → K) (ps : List (Part K)) (v : K) :
    (sort as false key ps).filter (fun p => decide (key p = v)) = ps.filter (fun p => decide (key p = v)) := by
  obtain ⟨h1, -⟩ := hs (ps.map key)
  have h3 := hst (ps.map key)
  rw [List.length_map] at h1
  have hl : ∀ l : List ℕ, (l.filterMap (fun i => ps[i]?)).filter (fun p => decide (key p = v)) =
      (l.filter (fun i => decide ((ps[i]?).map key = some v))).filterMap (fun i => ps[i]?) := by
    intro l
    induction l with
    | nil => rfl
    | cons i l ih =>
      cases hi : ps[i]? with
      | none => simp [hi, ih]
      | some p =>
        by_cases hp : key p = v
        · simp [hi, hp, ih]
        · simp [hi, hp, ih]
  unfold sort
  rw [hl]
  conv_rhs => rw [show ps = (List.range ps.length).filterMap (fun i => ps[i]?) from (filterMap_range_getElem? ps).symm]
  rw [hl]
  congr 1
  refine List.Perm.eq_of_pairwise (le := (· < ·)) (fun a b _ _ h1 h2 => absurd h1 (by omega)) ?_ ?_ (h1.filter _)
  · rw [List.pairwise_filter]
    refine h3.imp ?_
    intro i j h hi hj
    refine h ?_
    simp only [decide_eq_true_eq] at hi hj
    rw [List.getElem?_map, List.getElem?_map, hi, hj]
  · exact (List.pairwise_lt_range).filter _

theorem filter_perm_nodup {a b : List (Part K)} (h : a.Perm b) (key : Part K → K) (hn : (a.map key).Nodup) (v : K) :
    a.filter (fun p => decide (key p = v)) = b.filter (fun p => decide (key p = v)) := by
  have hp := h.filter (fun p => decide (key p = v))
  have hle : (a.filter (fun p => decide (key p = v))).length ≤ 1 := by
    rw [← List.countP_eq_length_filter]
    have := List.nodup_iff_count_le_one.1 hn v
    rw [List.count_eq_countP, List.countP_map] at this
    refine le_trans (le_of_eq ?_) this
    congr 1
  match ha : a.filter (fun p => decide (key p = v)), hp, hle with
  | [], hp, _ => exact (List.Perm.nil_eq hp)
  | [p], hp, _ => exact (List.Perm.singleton_eq hp)
  | p :: q :: l, _, hle => simp at hle

/-- Sorting together with further peaks. -/
theorem sort_perm_stable {as : List K → List ℕ} (hs : SortsKeys as) (hst : Stable as) {a b : List (Part K)} (h : a.Perm b) (key : Part K → K)
    (hn : (a.map key).Nodup) (m : List (Part K)) : sort as false key (a ++ m) = sort as false key (b ++ m) := by
  refine sorted_unique key (c37_sort hs false key _).2 (c37_sort hs false key _).2 ?_
  intro v
  rw [sort_filter hs hst, sort_filter hs hst, List.filter_append, List.filter_append, filter_perm_nodup h key hn]

/-- With different keys any sort will do. -/
theorem sort_perm_nodup {as : List K → List ℕ} (hs : SortsKeys as) {a b : List (Part K)} (h : a.Perm b) (key : Part K → K)
    (hn : (a.map key).Nodup) : sort as false key a = sort as false key b := by
  refine sorted_unique key (c37_sort hs false key _).2 (c37_sort hs false key _).2 ?_
  intro v
  refine filter_perm_nodup ?_ key ?_ v
  · exact ((c37_sort hs false key a).1.trans h).trans (c37_sort hs false key b).1.symm
  · exact (((c37_sort hs false key a).1.map key).nodup_iff).2 hn

end Verif.Parts.Order
