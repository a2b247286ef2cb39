import Verif.Extract.TotalJoin
import Verif.Extract.Props

/-!
# `extract_single` returns or raises ValueError, and returns when peaks stay right of the data's start
-/

set_option linter.unusedSectionVars false

namespace Verif.Cluster

variable {α : Type} [AddCommGroup α] [LinearOrder α] [IsOrderedAddMonoid α]
variable {x y : List α} {res : α} {order : List ℕ}

theorem row_zero_le {n : ℕ} {cs : List (ℕ × ℕ)} (h : WF n cs) : ∀ (i : ℕ), i < cs.length → i ≤ (row cs i).1 := by
  intro i
  induction i with
  | zero => intro _; omega
  | succ i ih =>
    intro hi
    have h1 := ih (by omega)
    have h2 := h.row_lt (show i < i + 1 by omega) hi
    have h3 := h.valid (row cs i) (mem_iff_row.2 ⟨i, by omega, rfl⟩)
    omega

/-- What `next` does to the table, when it returns a point: the cluster it names exists, and is a new one or an old
one that starts no later than before. -/
theorem next_row (hx : Increasing x) (hxy : x.length = y.length) (ho : IsArgsort y order) {e : Extraction α}
    (h : LoopInv x y res order e) {s : State α} (hn : next e.dc = (.ok, s)) :
    s.lastcluster.getD 0 < s.clusters.length ∧
    (s.clusters.length = e.slices.length + 1 ∨ (s.clusters.length = e.slices.length ∧
      ∀ t, e.slices[s.lastcluster.getD 0]? = some t → (cut s (s.lastcluster.getD 0)).1 ≤ t.1)) := by
  rcases next_cases hxy ho h.inv with ⟨cur, he, -, -⟩ | ⟨hd, cur, near, hlt, hz, hnr, -, he⟩
  · rw [he] at hn; simp at hn
  · rw [he] at hn
    simp only [Prod.mk.injEq, true_and] at hn
    have hol := order_length ho
    have hcur := h.inv.cur
    have hi := order_lt ho (j := cur) (by omega)
    obtain ⟨-, -, -, -, hlast, -, -⟩ :=
      wf_place hx.nondecreasing h.inv.wf (i := order.getD cur 0) (by omega) hnr hz res
    obtain ⟨pre, post, hcs, h1, h2, hc⟩ :=
      place_cases hx.nondecreasing h.inv.wf (i := order.getD cur 0) (by omega) hnr hz res
    have hlc : s.lastcluster.getD 0 = (place res e.dc.clusters near (order.getD cur 0)).2 := by rw [← hn]; rfl
    have hcl : s.clusters = (place res e.dc.clusters near (order.getD cur 0)).1 := by rw [← hn]
    refine ⟨by rw [hlc, hcl]; exact hlast, ?_⟩
    have hsl : e.slices.length = e.dc.clusters.length := by rw [h.sync]; simp
    have hcut : ∀ k c, s.clusters[k]? = some c → (cut s k).1 = c.1 := by
      intro k c hk
      unfold cut
      simp [row, hk]
    rcases hc with ⟨hp, -⟩ | ⟨-, p, b, hpre, -, hp⟩ | ⟨-, c, q, hpost, -, hp⟩
    · left
      rw [hsl, hcl, hp, hcs]
      simp
      omega
    · right
      refine ⟨by rw [hsl, hcl, hp, hcs, hpre]; simp, ?_⟩
      intro t ht
      rw [hlc, hp, h.sync, hcs, hpre] at ht
      simp [sl] at ht
      rw [hlc, hcut _ (b.1, order.getD cur 0) (by rw [hcl, hp]; simp), ← ht]
    · right
      refine ⟨by rw [hsl, hcl, hp, hcs, hpost]; simp, ?_⟩
      intro t ht
      rw [hlc, hp, h.sync, hcs, hpost] at ht
      simp [sl] at ht
      rw [hlc, hcut _ (order.getD cur 0, c.2) (by rw [hcl, hp]; simp), ← ht]
      have := h2 c (by rw [hpost]; simp)
      simp only
      omega

/-- The extents after the update are those of the clusters. -/
theorem updated_slices (hx : Increasing x) (hxy : x.length = y.length) (ho : IsArgsort y order) {e : Extraction α}
    (h : LoopInv x y res order e) {s : State α} (hn : next e.dc = (.ok, s)) :
    (if s.clusters.length > e.slices.length
        then e.slices.insertIdx (s.lastcluster.getD 0) (cut s (s.lastcluster.getD 0))
        else e.slices.set (s.lastcluster.getD 0) (cut s (s.lastcluster.getD 0))) = s.clusters.map sl := by
  rcases next_cases hxy ho h.inv with ⟨cur, he, -, -⟩ | ⟨hd, cur, near, hlt, hz, hnr, -, he⟩
  · rw [he] at hn; simp at hn
  · rw [he] at hn
    simp only [Prod.mk.injEq, true_and] at hn
    have hol := order_length ho
    have hcur := h.inv.cur
    have hi := order_lt ho (j := cur) (by omega)
    obtain ⟨-, -, -, -, hlast, -, -⟩ :=
      wf_place hx.nondecreasing h.inv.wf (i := order.getD cur 0) (by omega) hnr hz res
    have hshape := place_shape res e.dc.clusters near (order.getD cur 0)
    have hlc : s.lastcluster.getD 0 = (place res e.dc.clusters near (order.getD cur 0)).2 := by rw [← hn]; rfl
    have hcl : s.clusters = (place res e.dc.clusters near (order.getD cur 0)).1 := by rw [← hn]
    have hcut : ∀ k, cut s k = sl (row s.clusters k) := fun k => rfl
    rw [hlc, hcut, hcl, h.sync]
    generalize place res e.dc.clusters near (order.getD cur 0) = p at *
    rcases hshape with hsh | ⟨c, hsh⟩
    · have hle : p.2 ≤ e.dc.clusters.length := by
        rw [hsh, List.length_insertIdx] at hlast
        split at hlast <;> omega
      have hlen : p.1.length = e.dc.clusters.length + 1 := by
        rw [hsh, List.length_insertIdx, if_pos hle]
      rw [if_pos (by simp; omega)]
      have hrow : row p.1 p.2 = (order.getD cur 0, order.getD cur 0) := by
        rw [hsh, row, List.getD_eq_getElem?_getD, List.getElem?_insertIdx_self]
        simp [hle]
      rw [hrow, ← map_insertIdx', ← hsh]
    · have hlen : p.1.length = e.dc.clusters.length := by rw [hsh]; simp
      rw [if_neg (by simp; omega)]
      have hrow : row p.1 p.2 = c := by
        rw [hsh, row_set (by omega), if_pos rfl]
      rw [hrow, ← List.map_set, ← hsh]

/-- What a completed step of the skeleton went through. -/
theorem step_parts {e e' : Extraction α} {s : State α} (hn : next e.dc = (.ok, s)) (h : e.step = .next e') :
    ∃ adj sl', findAdjacent s = .ok adj ∧
      s.clusters.length = (if s.clusters.length > e.slices.length
        then e.slices.insertIdx (s.lastcluster.getD 0) (cut s (s.lastcluster.getD 0))
        else e.slices.set (s.lastcluster.getD 0) (cut s (s.lastcluster.getD 0))).length ∧
      adj.flatten.length ≤ 3 ∧
      joinLoop adj.flatten.tail.reverse (if s.clusters.length > e.slices.length
        then e.slices.insertIdx (s.lastcluster.getD 0) (cut s (s.lastcluster.getD 0))
        else e.slices.set (s.lastcluster.getD 0) (cut s (s.lastcluster.getD 0))) = .ok sl' ∧
      ((0 < adj.flatten.length ∧ ∃ s', combine s [adj.flatten] = (.ok, s') ∧ e' = ⟨s', sl'⟩) ∨
        (adj.flatten.length = 0 ∧ e' = ⟨s, sl'⟩)) := by
  unfold Extraction.step at h
  rw [hn] at h
  simp only at h
  generalize (if s.clusters.length > e.slices.length
        then e.slices.insertIdx (s.lastcluster.getD 0) (cut s (s.lastcluster.getD 0))
        else e.slices.set (s.lastcluster.getD 0) (cut s (s.lastcluster.getD 0))) = slu at *
  split at h
  · simp at h
  rename_i adj hadj
  split at h
  · simp at h
  rename_i h1
  split at h
  · simp at h
  rename_i h2
  split at h
  · simp at h
  rename_i sl' hj
  refine ⟨adj, sl', hadj, not_not.1 h1, by omega, hj, ?_⟩
  split at h
  · rename_i hpos
    split at h
    · rename_i s' hc
      simp only [StepResult.next.injEq] at h
      exact Or.inl ⟨hpos, s', hc, h.symm⟩
    · simp at h
  · simp only [StepResult.next.injEq] at h
    exact Or.inr ⟨by omega, h.symm⟩

end Verif.Cluster

namespace Verif.Parts.Extract

open Verif.Py Verif.PeakList Verif.Parts.ModelCluster Verif.Extraction

variable {K : Type} [Field K] [LinearOrder K] [IsStrictOrderedRing K]
variable {W : World K} {J : Job K} {Q : Key K → Prop} {V : Prop}

theorem atIndex_tot {yd : List K} {ms : List (Cluster K)} {sl : List (ℕ × ℕ)} {i : ℕ}
    {f : Cluster K → Res (Cluster K)} (h : NSync V J Q yd ms sl) {s : ℕ × ℕ} (hi : sl[i]? = some s)
    (hf : ∀ c, NRow V J Q yd c s → Ends V (f c) (fun d => NRow V J Q yd d s)) :
    Ends V (atIndex ms i f) (fun ms' => NSync V J Q yd ms' sl) := by
  obtain ⟨c, hc, hr⟩ := f2_get' h hi
  unfold atIndex
  rw [hc]
  simp only
  rcases hf c hr with ⟨d, e1, e2⟩ | ⟨hV, e⟩
  · rw [e1]; exact Or.inl ⟨_, rfl, f2_set' h i hi e2⟩
  · rw [e]; exact Or.inr ⟨hV, rfl⟩

theorem fitted_row (hS : Sane W) (hC : Calm W) (hV : V ∨ Confined W) (hQ : Supplies W J Q) {yd : List K} {c : Cluster K}
    {s : ℕ × ℕ} (h : NRow V J Q yd c s) :
    Ends V (fitted W { justify := true } c) (fun d => NRow V J Q yd d s) := by
  obtain ⟨v, hv, hst⟩ := h.row.starts
  obtain ⟨d, e, -, n⟩ := fitted_tot hS hC hV (o := { justify := true }) rfl hst
  obtain ⟨o, sl, -⟩ := fitted_of hS hQ (o := { justify := true }) rfl h.row.of_ e
  refine Or.inl ⟨d, e, ⟨o, by rw [sl]; exact h.row.slice, h.row.proper⟩, ?_⟩
  intro w hw
  rw [hv] at hw
  simp only [Option.some.injEq] at hw
  rw [← hw]; exact n (h.neat v hv)

theorem contingent_row (hS : Sane W) (hC : Calm W) (hV : V ∨ Confined W) (hQ : Supplies W J Q) {yd : List K} {c : Cluster K}
    {s : ℕ × ℕ} {mp : ℕ} (h : NRow V J Q yd c s) : Ends V (contingent W mp c) (fun d => NRow V J Q yd d s) := by
  obtain ⟨v, hv, hst⟩ := h.row.starts
  obtain ⟨d, e, n⟩ := contingent_tot hS hC hV (n := mp) hst
  obtain ⟨o, sl, -⟩ := contingent_of hS hQ h.row.of_ e
  refine Or.inl ⟨d, e, ⟨o, by rw [sl]; exact h.row.slice, h.row.proper⟩, ?_⟩
  intro w hw
  rw [hv] at hw
  simp only [Option.some.injEq] at hw
  rw [← hw]; exact n (h.neat v hv)

theorem fitAll_tot (hS : Sane W) (hC : Calm W) (hV : V ∨ Confined W) (hQ : Supplies W J Q) {yd : List K}
    {sl : List (ℕ × ℕ)} : ∀ (l : List ℕ) (ms : List (Cluster K)), (∀ i ∈ l, i < sl.length) →
    NSync V J Q yd ms sl → Ends V (fitAll W l ms) (fun ms' => NSync V J Q yd ms' sl) := by
  intro l
  induction l with
  | nil => intro ms _ h; exact Or.inl ⟨ms, rfl, h⟩
  | cons a l ih =>
    intro ms hl h
    have := atIndex_tot h (List.getElem?_eq_getElem (hl a List.mem_cons_self)) (fun c hc => fitted_row hS hC hV hQ hc)
    unfold fitAll
    rcases this with ⟨ms1, e1, h1⟩ | ⟨hV', e⟩
    · rw [e1]; exact ih ms1 (fun i hi => hl i (List.mem_cons_of_mem _ hi)) h1
    · rw [e]; exact Or.inr ⟨hV', rfl⟩

theorem iteration_tot (hS : Sane W) (hC : Calm W) (hV : V ∨ Confined W) (hQ : Supplies W J Q)
    (hrem : ∀ k, Q k → k.2.2.1 = true) {rec : Deeper K} (hF : Finds rec Q) (hR : RecEnds V rec) {yd y0 : List K}
    (hx : Data J.x yd J.dy) (hl : J.x.length = y0.length) {order : List ℕ} (ho : Cluster.IsArgsort y0 order) {mp : ℕ}
    {s0 s : Cluster.State K} {ms : List (Cluster K)} {sl : List (ℕ × ℕ)} {e' : Cluster.Extraction K}
    (hi : Cluster.LoopInv J.x y0 J.cres order ⟨s0, sl⟩) (hn : Cluster.next s0 = (.ok, s))
    (hw : Cluster.WF J.x.length s.clusters) (hstep : Cluster.Extraction.step ⟨s0, sl⟩ = .next e')
    (h : NSync V J Q yd ms sl) :
    Ends V (iteration W J rec yd mp s ms) (fun r => r.1 = e'.dc ∧ NSync V J Q yd r.2 e'.slices) := by
  obtain ⟨adj, sl', hadj, hlen, h3, hj, hcomb⟩ := Cluster.step_parts hn hstep
  obtain ⟨hlast, hshape⟩ := Cluster.next_row hx.inc hl ho hi hn
  have hmap := Cluster.updated_slices hx.inc hl ho hi hn
  have hstart : ∀ (k : ℕ) (t : ℕ × ℕ), (s.clusters.map Cluster.sl)[k]? = some t →
      t.1 = (Cluster.row s.clusters k).1 ∧ t.2 = (Cluster.row s.clusters k).2 + 1 := by
    intro k t ht
    rw [List.getElem?_map] at ht
    cases hc : s.clusters[k]? with
    | none => rw [hc] at ht; simp at ht
    | some c =>
      rw [hc] at ht
      simp only [Option.map_some, Option.some.injEq] at ht
      rw [← ht]
      simp [Cluster.row, hc, Cluster.sl]
  simp only at hlen hj hshape hmap
  generalize hk : s.lastcluster.getD 0 = k at *
  have hcut : (Cluster.cut s k).1 < (Cluster.cut s k).2 ∧ (Cluster.cut s k).2 ≤ J.x.length := by
    have := hw.valid (Cluster.row s.clusters k) (Cluster.mem_iff_row.2 ⟨k, hlast, rfl⟩)
    unfold Cluster.cut
    simp only
    omega
  have hupd : Ends V (update W J yd s k ms) (fun ms' => NSync V J Q yd ms' (if s.clusters.length > sl.length
        then sl.insertIdx k (Cluster.cut s k) else sl.set k (Cluster.cut s k))) := by
    unfold update
    rw [h.length_eq]
    by_cases hlt : sl.length < s.clusters.length
    · rw [if_pos hlt, if_pos hlt]
      obtain ⟨c, hc⟩ := newCluster_part (W := W) (J := J) [] (some J.bl) hx.leny hx.lene hcut.1 (by omega)
      rw [hc]
      obtain ⟨o, sli, hm, -⟩ := newCluster_of (Q := Q) Keys.nil hc
      refine Or.inl ⟨_, rfl, f2_insert h _ ⟨⟨o, sli, hcut⟩, ?_⟩⟩
      intro v _
      rw [hm]; exact Neat.nil V v
    · rw [if_neg hlt, if_neg hlt]
      have hsh : s.clusters.length = sl.length ∧ ∀ t, sl[k]? = some t → (Cluster.cut s k).1 ≤ t.1 := by
        rcases hshape with hs | hs
        · omega
        · exact hs
      have hkl : k < sl.length := by omega
      obtain ⟨c, hc, hr⟩ := f2_get' h (List.getElem?_eq_getElem hkl)
      have hle := hsh.2 _ (List.getElem?_eq_getElem hkl)
      generalize sl[k] = t at hr hle
      unfold atIndex
      rw [hc]
      simp only
      obtain ⟨ly, le⟩ := hr.row.lens hx
      obtain ⟨d, hd⟩ := reslice_tot (W := W) ly le hr.row.slice hr.row.proper.1 (by rw [hr.row.of_.r]; exact hr.row.proper.2)
        (s := Cluster.cut s k) (by rw [hr.row.of_.r]; exact hcut.2)
      rw [hd]
      obtain ⟨o, sli⟩ := reslice_of hr.row.of_ hd
      have hmod : d.model = c.model := by
        unfold reslice at hd
        split at hd
        · simp at hd
        · rename_i c' heq
          obtain ⟨b, e, -⟩ := changeSlice_ok heq
          simp only [Except.ok.injEq] at hd
          rw [← hd, e]
      refine Or.inl ⟨_, rfl, f2_set h k ⟨⟨o, sli, hcut⟩, ?_⟩⟩
      intro v hv
      rw [hmod]
      have p := hr.row.proper
      have hl1 : t.1 < J.x.length := by omega
      exact (hr.neat _ (List.getElem?_eq_getElem hl1)).weaken (index_mono hx.inc hv (List.getElem?_eq_getElem hl1) hle)
  generalize hslu : (if s.clusters.length > sl.length then sl.insertIdx k (Cluster.cut s k)
    else sl.set k (Cluster.cut s k)) = slu at *
  rw [← hmap] at hstart
  -- the indices of adjacent clusters
  have hA : adj = Cluster.adjLoop s.clusters 0 := by
    unfold Cluster.findAdjacent at hadj
    split at hadj
    · simp at hadj
    · simp only at hadj
      split at hadj
      · simp only [Except.ok.injEq] at hadj; exact hadj.symm
      · simp at hadj
  have hsorted : adj.flatten.Pairwise (· < ·) := by rw [hA]; exact Cluster.adjLoop_sorted _ _
  have hbound : ∀ i ∈ adj.flatten, i < s.clusters.length := by
    intro i hi
    obtain ⟨g, hg, hig⟩ := List.mem_flatten.1 hi
    rw [hA] at hg
    obtain ⟨l, r, -, hrun, rfl⟩ := (Cluster.mem_adjLoop s.clusters 0 (.inl rfl) g).1 hg
    have := hrun.bound
    have := List.mem_range'_1.1 hig
    omega
  have htail : ∀ i ∈ adj.flatten.tail.reverse, 0 < i ∧ i < s.clusters.length := by
    intro i hi
    have hi' := List.mem_reverse.1 hi
    refine ⟨?_, hbound i (List.mem_of_mem_tail hi')⟩
    match hfl : adj.flatten with
    | [] => rw [hfl] at hi'; simp at hi'
    | a :: l =>
      rw [hfl] at hi' hsorted
      have := (List.pairwise_cons.1 hsorted).1 i hi'
      omega
  have hdec : adj.flatten.tail.reverse.Pairwise (· > ·) := by
    rw [List.pairwise_reverse]
    exact hsorted.sublist (List.tail_sublist _)
  unfold iteration
  simp only [hk]
  refine Ends.bind hupd ?_
  intro ms1 _ h1
  refine Ends.step (d := adj) (by rw [hadj]) ?_
  rw [if_neg (by rw [h1.length_eq]; simpa using hlen), if_neg (by omega)]
  refine Ends.bind (fitAll_tot hS hC hV hQ _ _ (fun i hi => by rw [← hlen]; exact hbound i hi) h1) ?_
  intro ms2 _ h2
  have hkl : k < slu.length := by omega
  have hks := hstart k _ (List.getElem?_eq_getElem hkl)
  refine Ends.bind (atIndex_tot h2 (List.getElem?_eq_getElem hkl) (fun c hc => contingent_row hS hC hV hQ hc)) ?_
  intro ms3 _ h3
  have hb : Ends V (atBoundary W J rec yd s k ms3) (fun ms' => NSync V J Q yd ms' slu) := by
    unfold atBoundary
    split
    · refine atIndex_tot h3 (List.getElem?_eq_getElem hkl) ?_
      intro c hc
      refine boundary_tot hS hC hV hQ hrem hF hR hx ?_ hc
      have := Cluster.row_zero_le hw k hlast
      have := hw.valid (Cluster.row s.clusters k) (Cluster.mem_iff_row.2 ⟨k, hlast, rfl⟩)
      omega
    · exact Or.inl ⟨ms3, rfl, h3⟩
  refine Ends.bind hb ?_
  intro ms4 _ h4
  refine Ends.bind (joinLoop_tot hS hC hV hQ hrem hF hR hx hw _ _ _ sl' hdec htail ?_ h4 hj) ?_
  · intro i hi j hji
    have := htail i hi
    have hjl : j < slu.length := by omega
    exact ⟨_, List.getElem?_eq_getElem hjl, (hstart j _ (List.getElem?_eq_getElem hjl)).1⟩
  intro ms5 _ h5
  rcases hcomb with ⟨hpos, s', hc, rfl⟩ | ⟨hz, rfl⟩
  · rw [if_pos hpos, hc]
    exact Or.inl ⟨_, rfl, rfl, h5⟩
  · rw [if_neg (by omega)]
    exact Or.inl ⟨_, rfl, rfl, h5⟩

/-- The main loop ends, with the extents of a finished clustering. -/
theorem mainLoop_tot (hS : Sane W) (hC : Calm W) (hV : V ∨ Confined W) (hQ : Supplies W J Q)
    (hrem : ∀ k, Q k → k.2.2.1 = true) {rec : Deeper K} (hF : Finds rec Q) (hR : RecEnds V rec) {yd y0 : List K}
    (hx : Data J.x yd J.dy) (hl : J.x.length = y0.length) {order : List ℕ} (ho : Cluster.IsArgsort y0 order) {mp : ℕ} :
    ∀ (n : ℕ) (s : Cluster.State K) (ms : List (Cluster K)) (sl : List (ℕ × ℕ)),
    Cluster.LoopInv J.x y0 J.cres order ⟨s, sl⟩ → NSync V J Q yd ms sl → s.currentIdx < n →
    Ends V (mainLoop W J rec yd mp n s ms) (fun ms' => ∃ e, Cluster.LoopInv J.x y0 J.cres order e ∧
      e.dc.currentIdx = 0 ∧ NSync V J Q yd ms' e.slices) := by
  intro n
  induction n with
  | zero => intro s ms sl _ _ h; omega
  | succ n ih =>
    intro s ms sl hi hs hlt
    unfold mainLoop
    have hinv := Cluster.inv_next hx.inc.nondecreasing hl ho hi.inv
    have hstep := Cluster.step_cases hx.inc hl ho hi
    have hnc := Cluster.next_cases hl ho hi.inv
    cases hn : Cluster.next s with
    | mk o s1 =>
      have hn' : Cluster.next (⟨s, sl⟩ : Cluster.Extraction K).dc = (o, s1) := hn
      rw [hn'] at hinv hnc
      rcases hstep with ⟨e', k1, k2, k3⟩ | ⟨e', k1, k2, k3⟩
      · have : o = .stopIteration := by
          rcases hnc with ⟨cur, he, -, -⟩ | ⟨-, cur, near, -, -, -, -, he⟩
          · simp only [Prod.mk.injEq] at he; exact he.1
          · simp only [Prod.mk.injEq] at he
            unfold Cluster.Extraction.step at k1
            rw [hn', he.1] at k1
            simp only at k1
            exfalso
            revert k1
            generalize (if s1.clusters.length > sl.length
              then sl.insertIdx (s1.lastcluster.getD 0) (Cluster.cut s1 (s1.lastcluster.getD 0))
              else sl.set (s1.lastcluster.getD 0) (Cluster.cut s1 (s1.lastcluster.getD 0))) = slu
            intro k1
            split at k1
            · simp at k1
            split at k1
            · simp at k1
            split at k1
            · simp at k1
            split at k1
            · simp at k1
            split at k1
            · split at k1
              · simp at k1
              · simp at k1
            · simp at k1
        subst this
        refine Or.inl ⟨ms, rfl, e', k2, k3, ?_⟩
        unfold Cluster.Extraction.step at k1
        rw [hn'] at k1
        simp only [Cluster.StepResult.finished.injEq] at k1
        rw [← k1]; exact hs
      · have : o = .ok := by
          rcases hnc with ⟨cur, he, -, -⟩ | ⟨-, cur, near, -, -, -, -, he⟩
          · simp only [Prod.mk.injEq] at he
            unfold Cluster.Extraction.step at k1
            rw [hn', he.1] at k1
            simp at k1
          · simp only [Prod.mk.injEq] at he; exact he.1
        subst this
        simp only
        rcases iteration_tot hS hC hV hQ hrem hF hR hx hl ho (mp := mp) hi hn hinv.wf k1 hs with ⟨⟨s2, ms2⟩, e2, e3, e4⟩ | ⟨hV', e2⟩
        · rw [e2]
          simp only at e3 e4 ⊢
          subst e3
          exact ih _ _ _ k2 e4 (by simp only at k3; omega)
        · rw [e2]; exact Or.inr ⟨hV', rfl⟩

theorem finish_tot (hS : Sane W) (hC : Calm W) (hV : V ∨ Confined W) {yd : List K} (hx : Data J.x yd J.dy) (hx0 : J.x ≠ [])
    (hrem : ∀ k, Q k → k.2.2.1 = true) (hip : ∀ p ∈ J.ip, p.removable = true) {top : Bool} {c : Cluster K}
    (h : NRow V J Q yd c (0, J.x.length)) {v : K} (hv : J.x.head? = some v) :
    EndsOr V (top = true ∧ ¬ Regular W) (finish W J top c) (fun d => J.ip = [] → top = false → Right V v d.model) := by
  have ho := h.row.of_
  unfold finish addexternal
  rw [withPeaks_eq]
  simp only [bind, Except.bind]
  generalize hc1 : (⟨sort W.as false pos (J.ip ++ c.model), c.baseline, c.r, _, c.err, c.rId, c.yId, c.eId, c.method, c.funcs, c.slice, c.lastFit, c.neverFit⟩ : Cluster K) = c1
  have hv' : J.x[0]? = some v := by rw [← hv, List.head?_eq_getElem?]
  have hr1 : c1.r = J.x := by rw [← hc1]; exact ho.r
  have hs1 : c1.slice = some ⟨some 0, J.x.length⟩ := by rw [← hc1]; exact h.row.slice
  have hy1 : c1.y.length = J.x.length := by
    rw [← hc1]
    simp only [List.length_zipWith]
    rw [ho.r, ho.y, hx.leny, min_self]
  have he1 : c1.err.length = J.x.length := by rw [← hc1]; show c.err.length = _; rw [ho.err, hx.lene]
  have hmem : ∀ p ∈ c1.model, p ∈ J.ip ∨ p ∈ c.model := by
    intro p hp
    rw [← hc1] at hp
    exact List.mem_append.1 ((c37_sort hS.sorts false pos _).1.subset hp)
  have hrem1 : ∀ p ∈ c1.model, p.removable = true := by
    intro p hp
    rcases hmem p hp with h' | h'
    · exact hip p h'
    · exact hrem _ (ho.keys p h')
  have hst : Starts c1 v := starts_part hr1 hs1 (List.length_pos_iff.2 hx0) hv'
  have hright : J.ip = [] → Right V v c1.model := by
    intro h0
    refine (h.neat v hv').right.subset ?_
    intro p hp
    rcases hmem p hp with h' | h'
    · rw [h0] at h'; simp at h'
    · exact h'
  have hpr : ∃ c2, pruned W J c1 = .ok c2 ∧ (Right V v c1.model → Right V v c2.model) := by
    unfold pruned
    by_cases h0 : c1.model = []
    · rw [if_pos h0]; exact ⟨c1, rfl, fun h => h⟩
    rw [if_neg h0, hs1]
    simp only
    have hg : ∀ l : List K, l.length = J.x.length → Slice.get ⟨some 0, J.x.length⟩ l = l := by
      intro l hl
      unfold Slice.get
      simp [getSlice, bounds, ← hl]
    rw [hr1, hg _ rfl, hg _ hy1, hg _ he1]
    obtain ⟨mc, hmc⟩ := (newCluster_whole (W := W) (J := J) [] none (r := J.x)
      (y := List.zipWith (fun a b => b - valuebl W c1.baseline a) J.x c1.y) (err := c1.err)
      (by rw [List.length_zipWith, hy1, min_self]) he1 (s := none) (Or.inl rfl)).1 hx0
    rw [hmc]
    simp only
    obtain ⟨meth, hq⟩ := hC.pquiet c1
    have ht := prune_total (hS.ptame c1) hq hC.pick mc hrem1
    have ha : Right V v c1.model → Right V v (prune (W.pruneEnv c1) W.pick mc c1.model).2 := by
      intro h'
      rcases hV with hV | hV
      · exact Or.inl hV
      rcases h' with h' | h'
      · exact Or.inl h'
      exact Or.inr (prune_all (hS.ptame c1) (hV.pfit c1 v hst) W.pick mc h')
    generalize prune (W.pruneEnv c1) W.pick mc c1.model = P at ht ha
    obtain ⟨u, m⟩ := P
    simp only at ht
    subst ht
    exact ⟨_, rfl, ha⟩
  obtain ⟨c2, e2, h2⟩ := hpr
  rw [e2]
  simp only
  cases top with
  | false => exact Or.inl (Or.inl ⟨c2, rfl, fun h0 _ => h2 (hright h0)⟩)
  | true =>
    simp only [if_true]
    rcases fitted_last hC { fitbaseline := true } c2 with ⟨d, hd⟩ | ⟨hR, hd⟩
    · rw [hd]
      exact Or.inl (Or.inl ⟨d, rfl, fun _ h => by simp at h⟩)
    · rw [hd]
      exact Or.inr ⟨⟨trivial, hR⟩, rfl⟩

/-- A search on proper data ends. -/
theorem search_tot (hS : Sane W) (hC : Calm W) (hV : V ∨ Confined W) (hQ : Supplies W J Q)
    (hrem : ∀ k, Q k → k.2.2.1 = true) {rec : Deeper K} (hF : Finds rec Q) (hR : RecEnds V rec)
    (hx : Data J.x J.y J.dy) {v : K} (hv : J.x.head? = some v) (hcres : 0 ≤ J.cres) (hfun : J.funcs ≠ [])
    (hip : ∀ p ∈ J.ip, p.removable = true) {top : Bool} :
    EndsOr V (top = true ∧ ¬ Regular W) (search W J rec top) (fun c => J.ip = [] → top = false → Right V v c.model) := by
  have hx0 : J.x ≠ [] := by intro h; rw [h] at hv; simp at hv
  unfold search searchN
  simp only
  generalize hy0 : List.zipWith (fun a b => b - W.val J.bl a - valueAt W.val J.ip a) J.x J.y = y0
  generalize hyd : List.zipWith (fun a b => b - valueAt W.val J.ip a) J.x J.y = yd
  have hl0 : J.x.length = y0.length := by rw [← hy0, List.length_zipWith, hx.leny, min_self]
  have hld : yd.length = J.x.length := by rw [← hyd, List.length_zipWith, hx.leny, min_self]
  have hxd : Data J.x yd J.dy := ⟨hx.inc, hld, hx.lene⟩
  have ho := argsort_of_sortsKeys hS.sorts y0
  have hpos : 0 < J.x.length := List.length_pos_iff.2 hx0
  obtain ⟨dc, hmk⟩ : ∃ dc, Cluster.mk J.x y0 J.cres (W.as y0) = .ok dc := by
    unfold Cluster.mk
    rw [if_neg (not_not.2 hl0), if_neg (not_lt.2 hcres), if_neg (by omega)]
    exact ⟨_, rfl⟩
  rw [hmk]
  refine EndsOr.step (d := dc) rfl ?_
  obtain ⟨-, -, hinv, hproc, -, hlen⟩ := Cluster.inv_mk hx0 ho hmk
  have hI : Cluster.LoopInv J.x y0 J.cres (W.as y0) ⟨dc, [Cluster.cut dc 0]⟩ := by
    refine ⟨hinv, hproc, ?_, ?_⟩
    · intro i hi
      have : i + 1 < dc.clusters.length := hi
      omega
    · show [Cluster.cut dc 0] = dc.clusters.map Cluster.sl
      match hcl : dc.clusters, hlen with
      | [c], _ => simp [Cluster.cut, Cluster.sl, Cluster.row, hcl]
  have hcut : (Cluster.cut dc 0).1 < (Cluster.cut dc 0).2 ∧ (Cluster.cut dc 0).2 ≤ J.x.length := by
    have hr : Cluster.row dc.clusters 0 ∈ dc.clusters := by
      match hcl : dc.clusters, hlen with
      | [c], _ => simp [Cluster.row]
    have := hinv.wf.valid _ hr
    unfold Cluster.cut
    simp only
    omega
  obtain ⟨first, e2⟩ := newCluster_part (W := W) (J := J) [] (some J.bl) hxd.leny hxd.lene hcut.1 (by omega)
  refine EndsOr.step e2 ?_
  obtain ⟨o1, sl1, m1, -⟩ := newCluster_of (Q := Q) Keys.nil e2
  have hsync : NSync V J Q yd [first] [Cluster.cut dc 0] :=
    .cons ⟨⟨o1, sl1, hcut⟩, fun w _ => by rw [m1]; exact Neat.nil V w⟩ .nil
  obtain ⟨mp, hmp⟩ : ∃ mp, maxOf (J.funcs.map (W.minpoints J.method)) = .ok mp := by
    unfold maxOf
    cases h : (J.funcs.map (W.minpoints J.method)).max? with
    | some m => exact ⟨m, rfl⟩
    | none =>
      rw [List.max?_eq_none_iff, List.map_eq_nil_iff] at h
      exact absurd h hfun
  refine EndsOr.step hmp ?_
  refine EndsOr.bind (mainLoop_tot hS hC hV hQ hrem hF hR hxd hl0 ho _ _ _ _ hI hsync hinv.cur) ?_
  rintro ms - ⟨e, i1, i2, i3⟩
  have hone := Cluster.noneAdjacent_of_wf_complete i1.inv.wf i1.none (Cluster.all_clustered hl0 ho i1.inv i1.proc i2)
  have hsl : e.slices = [(0, J.x.length)] := by
    rw [i1.sync, hone]
    simp [Cluster.sl]
    omega
  rw [hsl] at i3
  obtain ⟨c0, g1, hrow⟩ := f2_get' i3 (i := 0) (b := (0, J.x.length)) rfl
  refine EndsOr.step (item_some g1) ?_
  exact (finish_tot hS hC hV hxd hx0 hrem hip hrow hv)

end Verif.Parts.Extract
