import Verif.Cluster.AdjLemmas

/-! The invariant of reachable clustering states, and what one `next` does. -/

namespace Verif.Cluster

set_option linter.unusedSectionVars false

variable {α : Type} [AddCommGroup α] [LinearOrder α] [IsOrderedAddMonoid α]
variable {x y : List α} {res : α} {order : List ℕ}

/-- Invariant of all reachable states. -/
structure Inv (x y : List α) (res : α) (order : List ℕ) (s : State α) : Prop where
  sx : s.x = x
  sy : s.y = y
  sres : s.res = res
  so : s.dataOrder = order
  wf : WF x.length s.clusters
  cur : s.currentIdx < x.length
  st : s.status ≠ .init
  done : s.status = .done → s.currentIdx = 0
  last : ∃ p, s.lastpoint = some p ∧ p < x.length

/-- All points already passed in `data_order` are clustered (needs strictly increasing `x`). -/
def Processed (s : State α) : Prop :=
  ∀ j, s.currentIdx ≤ j → j < s.dataOrder.length → Clustered s.clusters (s.dataOrder.getD j 0)

theorem order_length (ho : IsArgsort y order) : order.length = y.length := by
  simpa using ho.1.length_eq

theorem order_lt (ho : IsArgsort y order) {j : ℕ} (hj : j < order.length) :
    order.getD j 0 < y.length := by
  have : order[j] ∈ List.range y.length := ho.1.subset (List.getElem_mem hj)
  simpa [hj] using this

theorem order_surj (ho : IsArgsort y order) {i : ℕ} (hi : i < y.length) :
    ∃ j < order.length, order.getD j 0 = i := by
  have : i ∈ order := ho.1.symm.subset (List.mem_range.2 hi)
  obtain ⟨j, hj, rfl⟩ := List.mem_iff_getElem.1 this
  exact ⟨j, hj, by simp [hj]⟩

theorem order_mono (ho : IsArgsort y order) {i j : ℕ} (hij : i ≤ j) (hj : j < order.length) :
    y.getD (order.getD i 0) 0 ≤ y.getD (order.getD j 0) 0 := by
  rcases hij.eq_or_lt with rfl | hij
  · exact le_rfl
  · have := List.pairwise_iff_getElem.1 ho.2 i j (by omega) hj hij
    simpa [hj, show i < order.length by omega] using this

/-- Zero distance means inside, when coordinates are distinct. -/
theorem clustered_of_zero (hx : Increasing x) {cs : List (ℕ × ℕ)} (h : WF x.length cs) {i m : ℕ}
    (hi : i < x.length) (hn : nearest x cs i = some (m, 0)) : Clustered cs i := by
  have hv : ∀ c ∈ cs, c.1 ≤ c.2 := fun c hc => (h.valid c hc).1
  rcases situation h i with ⟨pre, b, rfl, h1⟩ | ⟨pre, c, post, rfl, h1, h2, h3⟩ |
    ⟨c, post, rfl, h1⟩ | ⟨pre, b, c, post, rfl, h1, h2⟩
  · rw [nearest_right hv h1] at hn
    have := congrArg Prod.snd (Option.some.inj hn)
    have hlt := getD_strict hx (h1 b (by simp)) hi
    exact absurd (sub_eq_zero.1 this) hlt.ne'
  · exact ⟨c, by simp, h2, h3⟩
  · rw [nearest_left (h1 c (by simp))] at hn
    have := congrArg Prod.snd (Option.some.inj hn)
    have hc := h.valid c (by simp)
    have hlt := getD_strict hx (h1 c (by simp)) (by omega)
    exact absurd (sub_eq_zero.1 this) hlt.ne
  · rw [nearest_between (fun d hd => hv d (by simp at hd ⊢; tauto)) h1 (h2 c (by simp))] at hn
    have hc := h.valid c (by simp)
    split at hn
    · have := congrArg Prod.snd (Option.some.inj hn)
      have hlt := getD_strict hx (h1 b (by simp)) hi
      exact absurd (sub_eq_zero.1 this) hlt.ne'
    · have := congrArg Prod.snd (Option.some.inj hn)
      have hlt := getD_strict hx (h2 c (by simp)) (by omega)
      exact absurd (sub_eq_zero.1 this) hlt.ne

/-- What `next` does from a state satisfying the invariant. -/
theorem next_cases (_hxy : x.length = y.length) (_ho : IsArgsort y order) {s : State α}
    (h : Inv x y res order s) :
    (∃ cur, next s = (.stopIteration, { s with currentIdx := cur, status := .done }) ∧ cur = 0 ∧
      (s.status = .done ∨
        ∀ j < s.currentIdx, ∃ m, nearest x s.clusters (order.getD j 0) = some (m, 0))) ∨
    (s.status ≠ .done ∧ ∃ cur near, cur < s.currentIdx ∧ near.2 ≠ 0 ∧
      nearest x s.clusters (order.getD cur 0) = some near ∧
      (∀ j < s.currentIdx, cur < j →
        ∃ m, nearest x s.clusters (order.getD j 0) = some (m, 0)) ∧
      next s = (.ok, { s with
        currentIdx := cur
        status := if cur ≤ 0 then .done else .clustering
        lastpoint := some (order.getD cur 0)
        clusters := (place res s.clusters near (order.getD cur 0)).1
        lastcluster := some (place res s.clusters near (order.getD cur 0)).2 })) := by
  have key : s.status ≠ .init → s.status ≠ .done → next s =
      (match scan s.x s.clusters s.dataOrder s.currentIdx (0, 0) 0 with
      | .error e => (e, { s with status := .clustering })
      | .ok (cur, near, t) =>
        let st : Status := if cur ≤ 0 then .done else .clustering
        if cur ≤ 0 ∧ near.2 = 0 then
          (.stopIteration, { s with currentIdx := cur, status := st })
        else
          let p := place s.res s.clusters near t
          (.ok, { s with
            currentIdx := cur
            status := st
            lastpoint := some t
            clusters := p.1
            lastcluster := some p.2 })) := by
    intro h1 h2
    unfold next
    split
    · rename_i hst; exact absurd hst h1
    · rename_i hst; exact absurd hst h2
    · rfl
  by_cases hd : s.status = .done
  · left
    refine ⟨0, ?_, rfl, .inl hd⟩
    have := h.done hd
    unfold next
    rw [hd]
    simp only
    congr 1
    rw [← this, ← hd]
  · rw [key h.st hd]
    obtain ⟨cur', near, t', hscan, hc⟩ := scan_spec (x := x) h.wf order s.currentIdx 0 0
    rw [h.sx, h.so, hscan, h.sres]
    simp only
    rcases hc with ⟨rfl, hz, hall⟩ | ⟨hlt, hz, rfl, hn, hall⟩
    · left
      exact ⟨0, by simp [hz], rfl, .inr hall⟩
    · right
      refine ⟨hd, cur', near, hlt, hz, hn, hall, ?_⟩
      rw [if_neg (by tauto)]

theorem inv_mk (hx0 : x ≠ []) (ho : IsArgsort y order) {s : State α}
    (h : mk x y res order = .ok s) :
    x.length = y.length ∧ 0 ≤ res ∧ Inv x y res order s ∧ Processed s ∧ s.status = .ready ∧
      s.clusters.length = 1 := by
  unfold mk at h
  split at h
  · simp at h
  rename_i hxy
  rw [not_not] at hxy
  split at h
  · simp at h
  rename_i hres
  have hpos : 0 < x.length := List.length_pos_iff.2 hx0
  rw [if_neg (by omega)] at h
  have hol := order_length ho
  have hlt := order_lt ho (j := order.length - 1) (by omega)
  simp only [Except.ok.injEq] at h
  subst h
  refine ⟨hxy, not_lt.1 hres, ⟨rfl, rfl, rfl, rfl, ⟨by simp, by simp only [List.mem_singleton, forall_eq]; omega, by simp⟩,
    by simp; omega, by simp, by simp, ⟨_, rfl, by omega⟩⟩, ?_, rfl, rfl⟩
  intro j hj1 hj2
  simp only at hj1 hj2 ⊢
  obtain rfl : j = order.length - 1 := by omega
  exact ⟨_, List.mem_singleton_self _, le_rfl, le_rfl⟩

theorem inv_next (hx : Nondecreasing x) (hxy : x.length = y.length) (ho : IsArgsort y order)
    {s : State α} (h : Inv x y res order s) : Inv x y res order (next s).2 := by
  have hol := order_length ho
  rcases next_cases hxy ho h with ⟨cur, he, rfl, -⟩ | ⟨hd, cur, near, hlt, hz, hn, -, he⟩
  · rw [he]
    exact ⟨h.sx, h.sy, h.sres, h.so, h.wf, (Nat.zero_le _).trans_lt h.cur, by simp, by simp, h.last⟩
  · rw [he]
    have hcur := h.cur
    have hi := order_lt ho (j := cur) (by omega)
    have := wf_place hx h.wf (i := order.getD cur 0) (by omega) hn hz res
    refine ⟨h.sx, h.sy, h.sres, h.so, this.1, by simp; omega, ?_, ?_, ⟨_, rfl, by omega⟩⟩
    · simp only; split <;> simp
    · simp only; split <;> simp; omega

theorem processed_next (hx : Increasing x) (hxy : x.length = y.length) (ho : IsArgsort y order)
    {s : State α} (h : Inv x y res order s) (hp : Processed s) : Processed (next s).2 := by
  have hol := order_length ho
  have hcur := h.cur
  rcases next_cases hxy ho h with ⟨cur, he, rfl, hall⟩ | ⟨hd, cur, near, hlt, hz, hn, hall, he⟩
  · rw [he]
    intro j hj1 hj2
    simp only at hj1 hj2 ⊢
    rcases hall with hdone | hall
    · exact hp j (by have := h.done hdone; omega) hj2
    · rcases Nat.lt_or_ge j s.currentIdx with hlt | hge
      · obtain ⟨m, hm⟩ := hall j hlt
        rw [h.so]
        rw [h.so] at hj2
        have := order_lt ho hj2
        exact clustered_of_zero hx h.wf (by omega) hm
      · exact hp j hge hj2
  · rw [he]
    have hi := order_lt ho (j := cur) (by omega)
    have hpl := wf_place hx.nondecreasing h.wf (i := order.getD cur 0) (by omega) hn hz res
    intro j hj1 hj2
    simp only at hj1 hj2 ⊢
    rw [h.so] at hj2 ⊢
    rcases hj1.eq_or_lt with rfl | hj1
    · exact hpl.2.1
    · apply hpl.2.2.1
      rcases Nat.lt_or_ge j s.currentIdx with hlt' | hge
      · obtain ⟨m, hm⟩ := hall j hlt' hj1
        have := order_lt ho hj2
        exact clustered_of_zero hx h.wf (by omega) hm
      · have := hp j hge (by rw [h.so]; exact hj2)
        rwa [h.so] at this

theorem inv_reset (hxy : x.length = y.length) (ho : IsArgsort y order)
    {s : State α} (h : Inv x y res order s) :
    Inv x y res order (reset s).2 ∧ Processed (reset s).2 := by
  have hol := order_length ho
  have hcur := h.cur
  have hst := h.st
  have hlt := order_lt ho (j := order.length - 1) (by omega)
  unfold reset
  rw [h.so, if_neg (by omega)]
  refine ⟨⟨h.sx, h.sy, h.sres, rfl, ⟨by simp, by simp only [List.mem_singleton, forall_eq]; omega, by simp⟩, by simp; omega, by simp [hst],
    by simp [hst], ⟨_, rfl, by omega⟩⟩, ?_⟩
  intro j hj1 hj2
  simp only at hj1 hj2 ⊢
  obtain rfl : j = order.length - 1 := by omega
  exact ⟨_, List.mem_singleton_self _, le_rfl, le_rfl⟩

theorem inv_combine {s : State α} (h : Inv x y res order s) {gs : List (List ℕ)}
    (hp : ProperCombine s gs) :
    Inv x y res order (combine s gs).2 ∧ (Processed s → Processed (combine s gs).2) := by
  by_cases hok : (combine s gs).1 = .ok
  · obtain ⟨hc, he⟩ := combine_ok_spec h.wf hp.1 hok
    rw [he]
    refine ⟨⟨h.sx, h.sy, h.sres, h.so, hc.wf, h.cur, h.st, h.done, h.last⟩, ?_⟩
    intro hpr j hj1 hj2
    exact (hc.covered _).2 (hpr j hj1 hj2)
  · have hlen := hp.2.resolve_left hok
    rw [combine_single_raise hlen hp.1 hok]
    exact ⟨h, id⟩

theorem inv_reachable (hx : Nondecreasing x) (ho : IsArgsort y order) {s : State α}
    (h : Reachable x y res order s) : x.length = y.length ∧ Inv x y res order s := by
  induction h with
  | mk h1 h2 => exact ⟨(inv_mk h1 ho h2).1, (inv_mk h1 ho h2).2.2.1⟩
  | next _ ih => exact ⟨ih.1, inv_next hx ih.1 ho ih.2⟩
  | reset _ ih => exact ⟨ih.1, (inv_reset ih.1 ho ih.2).1⟩
  | combine _ hp ih => exact ⟨ih.1, (inv_combine ih.2 hp).1⟩

theorem processed_reachable (hx : Increasing x) (ho : IsArgsort y order) {s : State α}
    (h : Reachable x y res order s) : Processed s := by
  induction h with
  | mk h1 h2 => exact (inv_mk h1 ho h2).2.2.2.1
  | next h ih =>
    have := inv_reachable hx.nondecreasing ho h
    exact processed_next hx this.1 ho this.2 ih
  | reset h ih =>
    have := inv_reachable hx.nondecreasing ho h
    exact (inv_reset this.1 ho this.2).2
  | combine h hp ih =>
    have := inv_reachable hx.nondecreasing ho h
    exact (inv_combine this.2 hp).2 ih

/-- When everything in `data_order` has been passed, everything is clustered. -/
theorem all_clustered (hxy : x.length = y.length) (ho : IsArgsort y order) {s : State α}
    (h : Inv x y res order s) (hp : Processed s) (h0 : s.currentIdx = 0) :
    ∀ i < x.length, Clustered s.clusters i := by
  intro i hi
  obtain ⟨j, hj, rfl⟩ := order_surj ho (i := i) (by omega)
  have := hp j (by omega) (by rw [h.so]; exact hj)
  rwa [h.so] at this

end Verif.Cluster
