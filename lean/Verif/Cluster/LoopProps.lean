import Verif.Cluster.Props

/-!
# Property C51: the cluster bookkeeping of the extraction loop never fails

`extract_single` asserts that data clusters and model clusters stay in step and that at most three
clusters become adjacent in one step, and afterwards uses `mclusters[0]` as *the* result.
-/

namespace Verif.Cluster

set_option linter.unusedSectionVars false

variable {α : Type} [AddCommGroup α] [LinearOrder α] [IsOrderedAddMonoid α]
variable {x y : List α} {res : α} {order : List ℕ}

/-- The slice of a cluster. -/
def sl (c : ℕ × ℕ) : ℕ × ℕ := (c.1, c.2 + 1)

/-! ### Helper lemmas -/

/-- The table with clusters `l..r` merged. -/
def merged (cs : List (ℕ × ℕ)) (l r : ℕ) : List (ℕ × ℕ) :=
  cs.take l ++ ((row cs l).1, (row cs r).2) :: cs.drop (r + 1)

theorem row_take_append {cs t : List (ℕ × ℕ)} {m i : ℕ} (hm : m ≤ cs.length) (hi : i < m) :
    row (cs.take m ++ t) i = row cs i := by
  simp only [row, List.getD_eq_getElem?_getD]
  rw [List.getElem?_append_left (by simp; omega), List.getElem?_take_of_lt hi]

theorem row_at_append {cs t : List (ℕ × ℕ)} {c : ℕ × ℕ} {m : ℕ} (hm : m ≤ cs.length) :
    row (cs.take m ++ c :: t) m = c := by
  simp only [row, List.getD_eq_getElem?_getD]
  rw [List.getElem?_append_right (by simp)]
  simp [hm]

theorem row_map {cs : List (ℕ × ℕ)} {i : ℕ} (hi : i < cs.length) : row (cs.map sl) i = sl (row cs i) := by
  simp [row, hi]

theorem set_erase_merge (A B : List (ℕ × ℕ)) (a b j : ℕ × ℕ) :
    ((A ++ a :: b :: B).set A.length j).eraseIdx (A.length + 1) = A ++ j :: B := by
  induction A with
  | nil => simp
  | cons c A ih => simpa using ih

theorem map_insertIdx' {β γ : Type} (g : β → γ) (l : List β) (i : ℕ) (a : β) :
    (l.insertIdx i a).map g = (l.map g).insertIdx i (g a) := by
  induction l generalizing i with
  | nil => cases i <;> simp
  | cons c l ih => cases i <;> simp [ih]

theorem take_succ_row {cs : List (ℕ × ℕ)} {m : ℕ} (hm : m < cs.length) :
    cs.take (m + 1) = cs.take m ++ [row cs m] := by
  rw [List.take_succ_eq_append_getElem hm]
  simp [row, hm]

theorem joinLoop_run {n : ℕ} {cs : List (ℕ × ℕ)} {l r : ℕ} (hw : WF n cs) (hr : r < cs.length)
    (ht : ∀ i, l ≤ i → i < r → (row cs (i + 1)).1 = (row cs i).2 + 1) (k : ℕ) (hk : l + k ≤ r) :
    joinLoop (List.range' (l + 1) k).reverse
      ((cs.take (l + k) ++ ((row cs (l + k)).1, (row cs r).2) :: cs.drop (r + 1)).map sl)
      = .ok ((merged cs l r).map sl) := by
  induction k with
  | zero => rfl
  | succ k ih =>
    have e : List.range' (l + 1) (k + 1) = List.range' (l + 1) k ++ [l + 1 + k] := by
      rw [List.range'_concat]; simp
    rw [e, List.reverse_append, List.reverse_singleton, List.singleton_append, joinLoop]
    set T := cs.take (l + (k + 1)) ++ ((row cs (l + (k + 1))).1, (row cs r).2) :: cs.drop (r + 1)
      with hT
    have hlen : l + k + 1 < T.length := by
      simp only [hT, List.length_append, List.length_take, List.length_cons]; omega
    have h1 : row (T.map sl) (l + 1 + k - 1) = sl (row cs (l + k)) := by
      rw [show l + 1 + k - 1 = l + k by omega, row_map (by omega), hT,
        row_take_append (by omega) (by omega)]
    have h2 : row (T.map sl) (l + 1 + k) = sl ((row cs (l + k + 1)).1, (row cs r).2) := by
      rw [show l + 1 + k = l + (k + 1) by omega, row_map (by omega), hT,
        row_at_append (by omega)]
      rfl
    have htk := ht (l + k) (by omega) (by omega)
    have hv := hw.row_valid (show l + k < cs.length by omega)
    have hj : joinSlices (row (T.map sl) (l + 1 + k - 1)) (row (T.map sl) (l + 1 + k))
        = .ok (sl ((row cs (l + k)).1, (row cs r).2)) := by
      rw [h1, h2]
      have hc : (row cs (l + k)).1 < (row cs (l + k + 1)).1 := by omega
      have hc' : (row cs (l + k + 1)).1 = (row cs (l + k)).2 + 1 := htk
      have h3 : (row cs (l + k)).1 < (row cs (l + k)).2 + 1 := by omega
      simp [joinSlices, sl, hc', h3]
    rw [hj]
    simp only
    have hset : ((T.map sl).set (l + 1 + k - 1) (sl ((row cs (l + k)).1, (row cs r).2))).eraseIdx
        (l + 1 + k) =
        (cs.take (l + k) ++ ((row cs (l + k)).1, (row cs r).2) :: cs.drop (r + 1)).map sl := by
      have hTe : T = cs.take (l + k) ++ row cs (l + k) ::
          ((row cs (l + (k + 1))).1, (row cs r).2) :: cs.drop (r + 1) := by
        rw [hT, show l + (k + 1) = l + k + 1 by omega, take_succ_row (by omega)]
        simp
      have hl : ((cs.take (l + k)).map sl).length = l + k := by simp; omega
      rw [hTe, List.map_append, List.map_cons, List.map_cons, List.map_append, List.map_cons]
      have := set_erase_merge ((cs.take (l + k)).map sl) ((cs.drop (r + 1)).map sl)
        (sl (row cs (l + k))) (sl ((row cs (l + (k + 1))).1, (row cs r).2))
        (sl ((row cs (l + k)).1, (row cs r).2))
      rw [hl] at this
      rw [show l + 1 + k - 1 = l + k by omega, show l + 1 + k = l + k + 1 by omega]
      exact this
    rw [hset]
    exact ih (by omega)

theorem deleteRows_append (td : List ℕ) (k : ℕ) (a b : List (ℕ × ℕ)) :
    deleteRows td k (a ++ b) = deleteRows td k a ++ deleteRows td (k + a.length) b := by
  induction a generalizing k with
  | nil => simp [deleteRows]
  | cons c a ih =>
    have e : k + 1 + a.length = k + (a.length + 1) := by omega
    simp only [List.cons_append, deleteRows, ih, List.length_cons, e]
    split <;> simp

theorem deleteRows_none (td : List ℕ) (k : ℕ) (a : List (ℕ × ℕ))
    (h : ∀ i, k ≤ i → i < k + a.length → i ∉ td) : deleteRows td k a = a := by
  induction a generalizing k with
  | nil => rfl
  | cons c a ih =>
    rw [deleteRows, if_neg (h k le_rfl (by simp)), ih]
    intro i h1 h2
    exact h i (by omega) (by simp; omega)

theorem deleteRows_all (td : List ℕ) (k : ℕ) (a : List (ℕ × ℕ))
    (h : ∀ i, k ≤ i → i < k + a.length → i ∈ td) : deleteRows td k a = [] := by
  induction a generalizing k with
  | nil => rfl
  | cons c a ih =>
    rw [deleteRows, if_pos (h k le_rfl (by simp)), ih]
    intro i h1 h2
    exact h i (by omega) (by simp; omega)

/-- Combining one run of touching clusters merges it. -/
theorem combine_run (s : State α) {l r : ℕ} (h : MaxRun s.clusters l r) :
    combine s [List.range' l (r + 1 - l)] = (.ok, { s with clusters := merged s.clusters l r }) := by
  have hlt := h.lt
  have hb := h.bound
  have hg := h.goodGroup
  obtain ⟨m, hm⟩ : ∃ m, r = l + m := ⟨r - l, by omega⟩
  have e1 : r + 1 - l = m + 1 := by omega
  rw [e1] at hg ⊢
  have e2 : List.range' l (m + 1) = l :: List.range' (l + 1) m := rfl
  have hlast : (List.range' l (m + 1)).getD ((List.range' l (m + 1)).length - 1) 0 = r := by
    simp [hm]
  have hchk : checkGroup s.clusters (List.range' l (m + 1)) l
      ((List.range' l (m + 1)).getD ((List.range' l (m + 1)).length - 1) 0 - l) l = .ok := by
    rw [e2] at hg ⊢
    exact check_of_goodGroup hg
  have hloop : combineLoop s.clusters [List.range' l (m + 1)] =
      (.ok, s.clusters.set l ((row s.clusters l).1, (row s.clusters r).2)) := by
    rw [hlast] at hchk
    rw [e2, combineLoop]
    try simp only
    rw [← e2, hlast, hchk]
    simp only
    rw [if_neg (by omega)]
    rfl
  unfold combine
  rw [if_neg (by simp [rectangular]), if_neg (by
    simp only [List.flatten_cons, List.flatten_nil, List.append_nil, not_not]
    exact List.nodup_range'), hloop]
  simp only
  have htd : ((([List.range' l (m + 1)] : List (List ℕ)).map List.tail).flatten)
      = List.range' (l + 1) m := by simp [e2]
  rw [htd, if_neg]
  · congr 2
    -- split the table
    have hsplit : s.clusters.set l ((row s.clusters l).1, (row s.clusters r).2) =
        (s.clusters.take l ++ [((row s.clusters l).1, (row s.clusters r).2)]) ++
          ((s.clusters.drop (l + 1)).take m ++ s.clusters.drop (r + 1)) := by
      rw [List.set_eq_take_append_cons_drop, if_pos (by omega)]
      rw [show s.clusters.drop (r + 1) = (s.clusters.drop (l + 1)).drop m by
        rw [List.drop_drop]; congr 1; omega, List.take_append_drop]
      simp
    have hlen1 : (s.clusters.take l ++ [((row s.clusters l).1, (row s.clusters r).2)]).length = l + 1 := by
      simp; omega
    have hlen2 : ((s.clusters.drop (l + 1)).take m).length = m := by simp; omega
    rw [hsplit, deleteRows_append, hlen1, deleteRows_append _ (0 + (l + 1)), hlen2, deleteRows_none,
      deleteRows_all, deleteRows_none]
    · simp [merged]
    · intro i h1 h2 h3
      have := List.mem_range'_1.1 h3
      omega
    · intro i h1 h2
      rw [hlen2] at h2
      exact List.mem_range'_1.2 ⟨by omega, by omega⟩
    · intro i h1 h2 h3
      rw [hlen1] at h2
      have := List.mem_range'_1.1 h3
      omega
  · simp only [List.any_eq_true, decide_eq_true_eq, not_exists, not_and, List.length_set]
    intro i hi
    have := List.mem_range'_1.1 hi
    omega

/-- Merging the only run leaves no touching clusters. -/
theorem noneAdjacent_of_wf_complete {n : ℕ} {cs : List (ℕ × ℕ)} (hw : WF n cs)
    (hna : NoneAdjacent cs) (hall : ∀ i < n, Clustered cs i) : cs = [(0, n - 1)] := by
  have hpos : 0 < cs.length := List.length_pos_iff.2 hw.nonempty
  have hlen : cs.length = 1 := by
    by_contra hne
    have h1 : 0 + 1 < cs.length := by omega
    have hgap := hna 0 h1
    have hv1 := hw.row_valid h1
    obtain ⟨j, hj, h2, h3⟩ := clustered_iff_row.1 (hall ((row cs 0).2 + 1) (by omega))
    rcases Nat.lt_trichotomy j 1 with h | h | h
    · obtain rfl : j = 0 := by omega
      omega
    · subst h
      rw [Nat.zero_add] at hgap
      omega
    · have := hw.row_lt (show 0 + 1 < j by omega) hj
      omega
  match cs, hlen with
  | [c], _ =>
    have hv := hw.valid c (by simp)
    obtain ⟨d, hd, h1, h2⟩ := hall 0 (by omega)
    obtain ⟨e, he, h3, h4⟩ := hall (n - 1) (by omega)
    simp only [List.mem_singleton] at hd he
    subst hd he
    congr 1
    exact Prod.ext (by simpa using h1) (by omega)

/-- After one `next` from a table without touching clusters, clusters touch at most on either side
of one cluster. -/
theorem adjacent_after_place (hx : Nondecreasing x) {cs : List (ℕ × ℕ)} (h : WF x.length cs)
    (hna : NoneAdjacent cs) {i : ℕ} (hi : i < x.length) {near : ℕ × α}
    (hn : nearest x cs i = some near) (hz : near.2 ≠ 0) (res : α) :
    ∃ k0, ∀ k, k + 1 < (place res cs near i).1.length →
      (row (place res cs near i).1 (k + 1)).1 = (row (place res cs near i).1 k).2 + 1 →
      k = k0 ∨ k = k0 + 1 := by
  obtain ⟨pre, post, rfl, h1, h2, hc⟩ := place_cases hx h hi hn hz res
  have rowapp : ∀ (a b : List (ℕ × ℕ)) (j : ℕ), j < a.length → row (a ++ b) j = row a j := by
    intro a b j hj
    simp only [row, List.getD_eq_getElem?_getD]
    rw [List.getElem?_append_left hj]
  have rowapp2 : ∀ (a b : List (ℕ × ℕ)) (j : ℕ), row (a ++ b) (a.length + j) = row b j := by
    intro a b j
    simp only [row, List.getD_eq_getElem?_getD]
    rw [List.getElem?_append_right (by omega)]
    congr 2
    omega
  rcases hc with ⟨hp, -⟩ | ⟨-, p, b, rfl, -, hp⟩ | ⟨-, c, q, rfl, -, hp⟩
  · rw [hp]
    refine ⟨pre.length - 1, ?_⟩
    intro k hk ht
    simp only at hk ht
    by_contra hcon
    rcases Nat.lt_or_ge (k + 1) pre.length with h' | h'
    · rw [rowapp _ _ _ h', rowapp _ _ _ (by omega)] at ht
      have := hna k (by simp; omega)
      rw [rowapp _ _ _ h', rowapp _ _ _ (by omega)] at this
      omega
    · obtain ⟨j, rfl⟩ : ∃ j, k = pre.length + (j + 1) := ⟨k - pre.length - 1, by omega⟩
      simp only [List.length_append, List.length_cons] at hk
      rw [show pre.length + (j + 1) + 1 = pre.length + (j + 1 + 1) by omega, rowapp2, rowapp2] at ht
      have := hna (pre.length + j) (by simp; omega)
      rw [show pre.length + j + 1 = pre.length + (j + 1) by omega, rowapp2, rowapp2] at this
      have e : ∀ m, row ((i, i) :: post) (m + 1) = row post m := fun m => by simp [row]
      rw [e, e] at ht
      omega
  · rw [hp]
    refine ⟨p.length, ?_⟩
    intro k hk ht
    simp only at hk ht
    by_contra hcon
    have hcs : p ++ [b] ++ post = p ++ b :: post := by simp
    rw [hcs] at hna
    rcases Nat.lt_or_ge (k + 1) p.length with h' | h'
    · rw [rowapp _ _ _ h', rowapp _ _ _ (by omega)] at ht
      have := hna k (by simp; omega)
      rw [rowapp _ _ _ h', rowapp _ _ _ (by omega)] at this
      omega
    · rcases Nat.eq_or_lt_of_le h' with h' | h'
      · -- k + 1 = p.length : the grown cluster's left end did not change
        rw [rowapp _ _ k (by omega)] at ht
        have := hna k (by simp; omega)
        rw [rowapp _ _ k (by omega)] at this
        have e1 : k + 1 = p.length + 0 := by omega
        rw [e1, rowapp2] at ht this
        simp only [row, List.getD_cons_zero] at ht this
        omega
      · obtain ⟨j, rfl⟩ : ∃ j, k = p.length + (j + 1) := ⟨k - p.length - 1, by omega⟩
        simp only [List.length_append, List.length_cons] at hk
        rw [show p.length + (j + 1) + 1 = p.length + (j + 1 + 1) by omega, rowapp2, rowapp2] at ht
        have := hna (p.length + (j + 1)) (by simp; omega)
        rw [show p.length + (j + 1) + 1 = p.length + (j + 1 + 1) by omega, rowapp2, rowapp2] at this
        have e : ∀ a m, row (a :: post) (m + 1) = row post m := fun a m => by simp [row]
        rw [e, e] at ht this
        omega
  · rw [hp]
    refine ⟨pre.length - 1, ?_⟩
    intro k hk ht
    simp only at hk ht
    by_contra hcon
    rcases Nat.lt_or_ge (k + 1) pre.length with h' | h'
    · rw [rowapp _ _ _ h', rowapp _ _ _ (by omega)] at ht
      have := hna k (by simp; omega)
      rw [rowapp _ _ _ h', rowapp _ _ _ (by omega)] at this
      omega
    · obtain ⟨j, rfl⟩ : ∃ j, k = pre.length + j := ⟨k - pre.length, by omega⟩
      simp only [List.length_append, List.length_cons] at hk
      rw [show pre.length + j + 1 = pre.length + (j + 1) by omega, rowapp2, rowapp2] at ht
      have := hna (pre.length + j) (by simp; omega)
      rw [show pre.length + j + 1 = pre.length + (j + 1) by omega, rowapp2, rowapp2] at this
      have e : ∀ a m, row (a :: q) (m + 1) = row q m := fun a m => by simp [row]
      rw [e] at ht this
      cases j with
      | zero =>
        simp only [row, List.getD_cons_zero] at ht this
        omega
      | succ j =>
        rw [e] at ht this
        omega

/-- If clusters touch only on either side of one cluster, there is at most one run, of at most
three clusters. -/
theorem adjLoop_small {cs : List (ℕ × ℕ)} {k0 : ℕ}
    (h : ∀ k, k + 1 < cs.length → (row cs (k + 1)).1 = (row cs k).2 + 1 → k = k0 ∨ k = k0 + 1) :
    adjLoop cs 0 = [] ∨ ∃ l r, MaxRun cs l r ∧ r ≤ l + 2 ∧
      adjLoop cs 0 = [List.range' l (r + 1 - l)] := by
  have hmem := mem_adjLoop cs 0 (.inl rfl)
  have hsorted := adjLoop_sorted cs 0
  have hone : ∀ l r l' r', MaxRun cs l r → MaxRun cs l' r' → l = l' ∧ r = r' := by
    intro l r l' r' h1 h2
    have b1 := h1.bound
    have b2 := h2.bound
    have a1 := h l (by have := h1.lt; omega) (h1.touch l le_rfl h1.lt)
    have a2 := h l' (by have := h2.lt; omega) (h2.touch l' le_rfl h2.lt)
    have lt1 := h1.lt
    have lt2 := h2.lt
    have el : l = l' := by
      by_contra hne
      rcases Nat.lt_or_gt_of_ne hne with hlt | hlt
      · have := h1.touch (l' - 1) (by omega) (by omega)
        rcases h2.left with e | e
        · omega
        · rw [show l' - 1 + 1 = l' by omega] at this; exact e this
      · have := h2.touch (l - 1) (by omega) (by omega)
        rcases h1.left with e | e
        · omega
        · rw [show l - 1 + 1 = l by omega] at this; exact e this
    subst el
    refine ⟨rfl, ?_⟩
    by_contra hne
    rcases Nat.lt_or_gt_of_ne hne with hlt | hlt
    · rcases h1.right with e | e
      · omega
      · exact e (h2.touch r (by omega) hlt)
    · rcases h2.right with e | e
      · omega
      · exact e (h1.touch r' (by omega) hlt)
  match hA : adjLoop cs 0 with
  | [] => exact .inl rfl
  | [g] =>
    right
    obtain ⟨l, r, -, hrun, rfl⟩ := (hmem g).1 (by rw [hA]; simp)
    refine ⟨l, r, hrun, ?_, rfl⟩
    by_contra hcon
    have b := hrun.bound
    have a1 := h l (by omega) (hrun.touch l le_rfl hrun.lt)
    have a2 := h (l + 2) (by omega) (hrun.touch (l + 2) (by omega) (by omega))
    omega
  | g :: g' :: rest =>
    exfalso
    obtain ⟨l, r, -, hrun, e1⟩ := (hmem g).1 (by rw [hA]; simp)
    obtain ⟨l', r', -, hrun', e2⟩ := (hmem g').1 (by rw [hA]; simp)
    obtain ⟨rfl, rfl⟩ := hone l r l' r' hrun hrun'
    rw [hA, List.flatten_cons, List.flatten_cons, List.pairwise_append] at hsorted
    have hlt := hrun.lt
    have := hsorted.2.2 l (by rw [e1]; exact List.mem_range'_1.2 (by omega)) l
      (by rw [e2]; exact List.mem_append_left _ (List.mem_range'_1.2 (by omega)))
    omega

/-- `place` either inserts a row or replaces one, and reports its index. -/
theorem place_shape (res : α) (cs : List (ℕ × ℕ)) (near : ℕ × α) (t : ℕ) :
    ((place res cs near t).1 = cs.insertIdx (place res cs near t).2 (t, t)) ∨
    (∃ c, (place res cs near t).1 = cs.set (place res cs near t).2 c) := by
  unfold place
  split
  · split
    · exact .inr ⟨_, rfl⟩
    · exact .inr ⟨_, rfl⟩
  · exact .inl rfl

/-- Invariant of the extraction loop. -/
structure LoopInv (x y : List α) (res : α) (order : List ℕ) (e : Extraction α) : Prop where
  inv : Inv x y res order e.dc
  proc : Processed e.dc
  none : NoneAdjacent e.dc.clusters
  sync : e.slices = e.dc.clusters.map sl

theorem step_cases (hx : Increasing x) (hxy : x.length = y.length) (ho : IsArgsort y order)
    {e : Extraction α} (h : LoopInv x y res order e) :
    (∃ e', e.step = .finished e' ∧ LoopInv x y res order e' ∧ e'.dc.currentIdx = 0) ∨
    (∃ e', e.step = .next e' ∧ LoopInv x y res order e' ∧
      e'.dc.currentIdx < e.dc.currentIdx) := by
  have hinv' := inv_next hx.nondecreasing hxy ho h.inv
  have hproc' := processed_next hx hxy ho h.inv h.proc
  rcases next_cases hxy ho h.inv with ⟨cur, he, rfl, -⟩ | ⟨hd, cur, near, hlt, hz, hn, -, he⟩
  · left
    rw [he] at hinv' hproc'
    refine ⟨{ e with dc := { e.dc with currentIdx := 0, status := .done } }, ?_, ⟨hinv', hproc', h.none, h.sync⟩,
      rfl⟩
    unfold Extraction.step
    rw [he]
  · right
    have hol := order_length ho
    have hcur := h.inv.cur
    have hi := order_lt ho (j := cur) (by omega)
    obtain ⟨hwf, -, -, -, hlast, -, -⟩ :=
      wf_place hx.nondecreasing h.inv.wf (i := order.getD cur 0) (by omega) hn hz res
    obtain ⟨k0, hk0⟩ :=
      adjacent_after_place hx.nondecreasing h.inv.wf h.none (i := order.getD cur 0) (by omega) hn hz res
    have hshape := place_shape res e.dc.clusters near (order.getD cur 0)
    rw [he] at hinv' hproc'
    simp only at hinv' hproc'
    set p := place res e.dc.clusters near (order.getD cur 0) with hp
    set s1 : State α := { e.dc with
        currentIdx := cur
        status := if cur ≤ 0 then .done else .clustering
        lastpoint := some (order.getD cur 0)
        clusters := p.1
        lastcluster := some p.2 } with hs1
    have hcl : s1.clusters = p.1 := rfl
    have hms : (if s1.clusters.length > e.slices.length
        then e.slices.insertIdx (s1.lastcluster.getD 0) (cut s1 (s1.lastcluster.getD 0))
        else e.slices.set (s1.lastcluster.getD 0) (cut s1 (s1.lastcluster.getD 0)))
        = p.1.map sl := by
      have hlc : s1.lastcluster.getD 0 = p.2 := rfl
      have hcut : cut s1 p.2 = sl (row p.1 p.2) := rfl
      rw [hlc, hcut, hcl, h.sync]
      rcases hshape with hsh | ⟨c, hsh⟩
      · have hle : p.2 ≤ e.dc.clusters.length := by
          rw [hsh, List.length_insertIdx] at hlast
          split at hlast <;> omega
        have hlen : p.1.length = e.dc.clusters.length + 1 := by
          rw [hsh, List.length_insertIdx, if_pos hle]
        rw [if_pos (by simp; omega)]
        have hrow : row p.1 p.2 = (order.getD cur 0, order.getD cur 0) := by
          rw [hsh, row, List.getD_eq_getElem?_getD, List.getElem?_insertIdx_self]
          simp [hle]
        rw [hrow, ← map_insertIdx', ← hsh]
      · have hlen : p.1.length = e.dc.clusters.length := by rw [hsh]; simp
        rw [if_neg (by simp; omega)]
        have hrow : row p.1 p.2 = c := by
          rw [hsh, row_set (by omega), if_pos rfl]
        rw [hrow, ← List.map_set, ← hsh]
    have hst : s1.status ≠ .init := hinv'.st
    rcases adjLoop_small (cs := s1.clusters) hk0 with hadj | ⟨l, r, hrun, hr2, hadj⟩
    · refine ⟨⟨s1, p.1.map sl⟩, ?_, ⟨hinv', hproc', ?_, rfl⟩, hlt⟩
      · have hfa : findAdjacent s1 = .ok [] := by
          unfold findAdjacent
          rw [if_neg hst, hadj]
          rfl
        unfold Extraction.step
        rw [he]
        simp only
        rw [hms, hfa]
        simp [hcl, joinLoop]
      · intro i hi'
        have hlt' := hwf.row_lt (show i < i + 1 by omega) hi'
        by_contra hcon
        have hlt'' : (row s1.clusters i).2 < (row s1.clusters (i + 1)).1 := hlt'
        have hcon' : ¬ (row s1.clusters i).2 + 1 < (row s1.clusters (i + 1)).1 := hcon
        obtain ⟨l, r, -, -, hrun⟩ := exists_maxRun (cs := s1.clusters) hi' (by omega)
        have := (mem_adjLoop s1.clusters 0 (.inl rfl) _).2 ⟨l, r, Nat.zero_le _, hrun, rfl⟩
        rw [hadj] at this
        simp at this
    · have hlt1 := hrun.lt
      have hb1 := hrun.bound
      have hfa : findAdjacent s1 = .ok [List.range' l (r + 1 - l)] := by
        unfold findAdjacent
        rw [if_neg hst, hadj]
        rfl
      have hcomb := combine_run s1 hrun
      have hinc : ∀ c ∈ [List.range' l (r + 1 - l)], c.Pairwise (· < ·) := by
        simp only [List.mem_singleton, forall_eq]
        exact List.pairwise_lt_range'
      have hic := inv_combine hinv' (gs := [List.range' l (r + 1 - l)])
        ⟨hinc, .inl (by rw [hcomb])⟩
      rw [hcomb] at hic
      have hjoin : joinLoop ((List.range' l (r + 1 - l)).tail.reverse) (p.1.map sl)
          = .ok ((merged p.1 l r).map sl) := by
        obtain ⟨m, hm⟩ : ∃ m, r = l + m := ⟨r - l, by omega⟩
        have e2 : (List.range' l (r + 1 - l)).tail = List.range' (l + 1) m := by
          rw [List.tail_range']; congr 1; omega
        have := joinLoop_run hwf (l := l) (r := r) hb1 hrun.touch m (by omega)
        rw [← hm] at this
        rw [e2]
        have hfull : p.1.take r ++ ((row p.1 r).1, (row p.1 r).2) :: p.1.drop (r + 1) = p.1 := by
          have : ((row p.1 r).1, (row p.1 r).2) = p.1[r]'hb1 := by
            simp [row, show r < p.1.length from hb1]
          rw [this, ← List.drop_eq_getElem_cons, List.take_append_drop]
        rw [hfull] at this
        exact this
      refine ⟨⟨{ s1 with clusters := merged s1.clusters l r }, (merged p.1 l r).map sl⟩, ?_,
        ⟨hic.1, hic.2 hproc', ?_, rfl⟩, hlt⟩
      · unfold Extraction.step
        rw [he]
        simp only
        rw [hms, hfa]
        simp only [List.flatten_cons, List.flatten_nil, List.append_nil]
        rw [if_neg (by simp [hcl]), if_neg (by simp; omega), hjoin]
        simp only
        rw [if_pos (by simp; omega), hcomb]
      · -- no touching clusters remain
        have hw' := hic.1.wf
        intro i hi'
        have hlt' := hw'.row_lt (show i < i + 1 by omega) hi'
        by_contra hcon
        -- express rows of the merged table by rows of the old one
        have hM : ∀ j, j < (merged s1.clusters l r).length →
            (row (merged s1.clusters l r) j).1 = (row s1.clusters (if j ≤ l then j else j + (r - l))).1 ∧
            (row (merged s1.clusters l r) j).2 = (row s1.clusters (if j < l then j else j + (r - l))).2 := by
          intro j hj
          rcases Nat.lt_trichotomy j l with h' | h' | h'
          · rw [if_pos (by omega), if_pos h', merged, row_take_append (by omega) h']
            exact ⟨rfl, rfl⟩
          · subst h'
            rw [if_pos le_rfl, if_neg (by omega), merged, row_at_append (by omega)]
            refine ⟨rfl, ?_⟩
            rw [show j + (r - j) = r by omega]
          · rw [if_neg (by omega), if_neg (by omega)]
            have : row (merged s1.clusters l r) j = row s1.clusters (j + (r - l)) := by
              simp only [row, merged, List.getD_eq_getElem?_getD]
              rw [List.getElem?_append_right (by simp; omega)]
              have e3 : j - (s1.clusters.take l).length = (j - l - 1) + 1 := by simp; omega
              rw [e3, List.getElem?_cons_succ, List.getElem?_drop]
              congr 2
              omega
            rw [this]
            exact ⟨rfl, rfl⟩
        have hlen : (merged s1.clusters l r).length = s1.clusters.length - (r - l) := by
          simp only [merged, List.length_append, List.length_take, List.length_cons, List.length_drop]
          omega
        simp only at hi' hcon hlt'
        have m1 := hM i (by omega)
        have m2 := hM (i + 1) hi'
        rw [m1.2, m2.1] at hcon
        rw [m1.2, m2.1] at hlt'
        rw [hlen] at hi'
        rcases Nat.lt_trichotomy i l with h' | h' | h'
        · rw [if_pos (show i < l from h'), if_pos (show i + 1 ≤ l by omega)] at hcon hlt'
          rcases Nat.eq_or_lt_of_le (show i + 1 ≤ l by omega) with h'' | h''
          · -- the run is maximal on the left
            rcases hrun.left with e0 | e0
            · omega
            · rw [← h''] at e0
              simp only [Nat.add_sub_cancel] at e0
              omega
          · have := hk0 i (by show i + 1 < s1.clusters.length; omega) (by
              show (row s1.clusters (i + 1)).1 = (row s1.clusters i).2 + 1; omega)
            have := hk0 l (by show l + 1 < s1.clusters.length; omega) (hrun.touch l le_rfl hlt1)
            omega
        · subst h'
          rw [if_neg (show ¬ i < i by omega), if_neg (show ¬ i + 1 ≤ i by omega)] at hcon hlt'
          rw [show i + 1 + (r - i) = r + 1 by omega, show i + (r - i) = r by omega] at hcon hlt'
          rcases hrun.right with e0 | e0
          · omega
          · omega
        · rw [if_neg (show ¬ i < l by omega), if_neg (show ¬ i + 1 ≤ l by omega)] at hcon hlt'
          have := hk0 (i + (r - l)) (by show i + (r - l) + 1 < s1.clusters.length; omega) (by
            show (row s1.clusters (i + (r - l) + 1)).1 = (row s1.clusters (i + (r - l))).2 + 1
            rw [show i + (r - l) + 1 = i + 1 + (r - l) by omega]; omega)
          have := hk0 l (by show l + 1 < s1.clusters.length; omega) (hrun.touch l le_rfl hlt1)
          omega

/-! ### The property -/

/-- **C51.** On any non-empty data with distinct coordinates the main extraction loop ends, raising
nothing and violating no assertion, after fewer than `n` iterations, with exactly one data cluster
that spans the whole range and exactly one model cluster with the matching slice. -/
theorem c51_extraction_loop_total (hx : Increasing x) (ho : IsArgsort y order) (hx0 : x ≠ [])
    {f : State α} (hf : mk x y res order = .ok f) :
    ∃ k e', ExtractLoop (Extraction.start f) k e' ∧ k < x.length ∧
      e'.dc.clusters = [(0, x.length - 1)] ∧ e'.slices = [(0, x.length)] := by
  obtain ⟨hxy, -, hinv, hproc, -, hlen⟩ := inv_mk hx0 ho hf
  have hpos : 0 < x.length := List.length_pos_iff.2 hx0
  have h0 : LoopInv x y res order (Extraction.start f) := by
    refine ⟨hinv, hproc, ?_, ?_⟩
    · intro i hi
      have : i + 1 < f.clusters.length := hi
      omega
    · show [cut f 0] = f.clusters.map sl
      match hcl : f.clusters, hlen with
      | [c], _ => simp [cut, sl, row, hcl]
  suffices H : ∀ m (e : Extraction α), LoopInv x y res order e → e.dc.currentIdx ≤ m →
      ∃ k e', ExtractLoop e k e' ∧ k ≤ m ∧ LoopInv x y res order e' ∧ e'.dc.currentIdx = 0 by
    obtain ⟨k, e', h1, h2, h3, h4⟩ := H _ _ h0 le_rfl
    have hcur := hinv.cur
    have hone := noneAdjacent_of_wf_complete h3.inv.wf h3.none
      (all_clustered hxy ho h3.inv h3.proc h4)
    refine ⟨k, e', h1, ?_, hone, ?_⟩
    · have : (Extraction.start f).dc.currentIdx = f.currentIdx := rfl
      omega
    · rw [h3.sync, hone]
      simp [sl]
      omega
  intro m
  induction m with
  | zero =>
    intro e he hm
    rcases step_cases hx hxy ho he with ⟨e', h1, h2, h3⟩ | ⟨e', h1, h2, h3⟩
    · exact ⟨0, e', .stop h1, le_rfl, h2, h3⟩
    · omega
  | succ m ih =>
    intro e he hm
    rcases step_cases hx hxy ho he with ⟨e', h1, h2, h3⟩ | ⟨e', h1, h2, h3⟩
    · exact ⟨0, e', .stop h1, by omega, h2, h3⟩
    · obtain ⟨k, e'', h4, h5, h6⟩ := ih e' h2 (by omega)
      exact ⟨k + 1, e'', .step h1 h4, by omega, h6⟩

/-- The hypotheses are met by the example data. -/
example : ∃ k e', ExtractLoop (Extraction.start exS) k e' ∧ e'.slices = [(0, 5)] := by
  obtain ⟨k, e', h1, -, -, h2⟩ :=
    c51_extraction_loop_total (x := exX) (res := 1) (f := exS) exIncreasing exArgsort (by simp [exX]) rfl
  exact ⟨k, e', h1, h2⟩

end Verif.Cluster
