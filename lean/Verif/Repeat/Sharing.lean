import Verif.Repeat.Model

/-!
# The caller's baseline object is replaced by a copy when the first point is clustered
-/

set_option linter.unusedSectionVars false

namespace Verif.Parts.Repeat

open Verif.Py Verif.PeakList Verif.Extraction Verif.Parts.Extract Verif.Parts.ModelCluster

variable {K : Type} [Field K] [LinearOrder K] [IsStrictOrderedRing K]
variable {W : World K} {J : Job K} {Q : Verif.Parts.Extract.Key K → Prop}

/-- The first model cluster does not have the object. -/
def Gone (fl : List Bool) : Prop := fl.getD 0 false = false

theorem gone_lose {fl : List Bool} (h : Gone fl) (i : ℕ) (b : Bool) : Gone (lose fl i b) := by
  unfold Gone lose at *
  cases fl with
  | nil => simp
  | cons a fl =>
    simp only [List.getD_cons_zero] at h
    subst h
    cases i <;> simp

theorem gone_set {fl : List Bool} (h : Gone fl) (i : ℕ) : Gone (fl.set i false) := by
  unfold Gone at *
  cases fl with
  | nil => simp
  | cons a fl =>
    simp only [List.getD_cons_zero] at h
    subst h
    cases i <;> simp

theorem gone_set_zero (fl : List Bool) : Gone (fl.set 0 false) := by
  unfold Gone
  cases fl <;> simp

theorem gone_erase {fl : List Bool} (h : Gone fl) {i : ℕ} (hi : 1 ≤ i) : Gone (fl.eraseIdx i) := by
  unfold Gone at *
  obtain ⟨i, rfl⟩ : ∃ k, i = k + 1 := ⟨i - 1, by omega⟩
  cases fl with
  | nil => simp
  | cons a fl => simpa using h

theorem gone_insert {fl : List Bool} (h : Gone fl) {i : ℕ} (hi : 1 ≤ i) (b : Bool) : Gone (fl.insertIdx i b) := by
  unfold Gone at *
  obtain ⟨i, rfl⟩ : ∃ k, i = k + 1 := ⟨i - 1, by omega⟩
  cases fl with
  | nil => simp
  | cons a fl => simpa using h

theorem gone_fitAll : ∀ (l : List ℕ) (ms : List (Cluster K)) (fl : List Bool), Gone fl → Gone (fitAllShare W l ms fl) := by
  intro l
  induction l with
  | nil => intro ms fl h; exact h
  | cons a l ih =>
    intro ms fl h
    unfold fitAllShare
    split
    · exact ih _ _ (gone_lose h _ _)
    · exact h

theorem gone_contingent {mp last : ℕ} {ms : List (Cluster K)} {fl : List Bool} (h : Gone fl) : Gone (contingentShare W mp last ms fl) := by
  unfold contingentShare
  split
  · exact gone_lose h _ _
  · exact h

theorem gone_join {rec : Deeper K} {y : List K} {rows : List (ℕ × ℕ)} : ∀ (l : List ℕ) (ms : List (Cluster K)) (fl : List Bool),
    (∀ i ∈ l, 1 ≤ i) → Gone fl → Gone (joinShare W J rec y rows l ms fl) := by
  intro l
  induction l with
  | nil => intro ms fl _ h; exact h
  | cons a l ih =>
    intro ms fl hl h
    unfold joinShare
    split
    · split
      · exact h
      · split
        · exact h
        · exact ih _ _ (fun i hi => hl i (List.mem_cons_of_mem _ hi))
            (gone_erase (gone_lose h _ _) (hl a List.mem_cons_self))
    · exact h

/-- The joined cluster is the one of the model of the search. -/
theorem joined_unfit (rec : Deeper K) (y : List K) (cl cr : ℕ × ℕ) (m1 m2 : Cluster K) :
    joined W J rec y cl cr m1 m2 = joinedUnfit W J rec y cl cr m1 m2 >>= fitted W { justify := true } := by
  unfold joined joinedUnfit
  simp only [bind_assoc]

theorem clustered_zero_row {n : ℕ} {cs : List (ℕ × ℕ)} (h : Cluster.WF n cs) : Cluster.Clustered cs 0 ↔ (Cluster.row cs 0).1 = 0 := by
  constructor
  · rintro ⟨c, hc, h1, -⟩
    obtain ⟨i, hi, rfl⟩ := Cluster.mem_iff_row.1 hc
    by_cases h0 : i = 0
    · subst h0; omega
    · have := h.row_lt (show 0 < i by omega) hi
      omega
  · intro h0
    have hpos : 0 < cs.length := List.length_pos_iff.2 h.nonempty
    exact ⟨_, Cluster.row_mem hpos, by omega, Nat.zero_le _⟩

/-- Where a point is placed: at the first point only as the first cluster, and otherwise the first point is not clustered anew. -/
theorem place_zero {x : List K} (hx : Cluster.Nondecreasing x) {cs : List (ℕ × ℕ)} (h : Cluster.WF x.length cs) {t : ℕ} (ht : t < x.length)
    {near : ℕ × K} (hn : Cluster.nearest x cs t = some near) (hz : near.2 ≠ 0) (res : K) :
    (t = 0 → (Cluster.place res cs near t).2 = 0) ∧
    (t ≠ 0 → Cluster.Clustered (Cluster.place res cs near t).1 0 → Cluster.Clustered cs 0 ∧
      (cs.length < (Cluster.place res cs near t).1.length → 1 ≤ (Cluster.place res cs near t).2)) := by
  obtain ⟨pre, post, rfl, h1, h2, hc⟩ := Cluster.place_cases hx h ht hn hz res
  constructor
  · rintro rfl
    have hp : pre = [] := by
      cases pre with
      | nil => rfl
      | cons a pre => have := h1 a List.mem_cons_self; omega
    subst hp
    rcases hc with ⟨hp, -⟩ | ⟨-, p, b, he, -, hp⟩ | ⟨-, c, q, rfl, -, hp⟩
    · rw [hp]; rfl
    · simp at he
    · rw [hp]; rfl
  · intro h0
    rcases hc with ⟨hp, -⟩ | ⟨-, p, b, rfl, -, hp⟩ | ⟨-, c, q, rfl, -, hp⟩
    · rw [hp]
      rintro ⟨d, hd, h3, h4⟩
      simp only [List.mem_append, List.mem_cons] at hd
      rcases hd with hd | rfl | hd
      · refine ⟨⟨d, by simp [hd], h3, h4⟩, fun _ => ?_⟩
        simp only
        exact List.length_pos_of_mem hd
      · simp only at h3; omega
      · have := h2 d hd
        omega
    · rw [hp]
      rintro ⟨d, hd, h3, h4⟩
      refine ⟨?_, fun hl => by simp at hl⟩
      simp only [List.mem_append, List.mem_cons] at hd
      rcases hd with hd | rfl | hd
      · exact ⟨d, by simp [hd], h3, h4⟩
      · exact ⟨b, by simp, h3, Nat.zero_le _⟩
      · exact ⟨d, by simp [hd], h3, h4⟩
    · rw [hp]
      rintro ⟨d, hd, h3, h4⟩
      refine ⟨?_, fun hl => by simp at hl⟩
      simp only [List.mem_append, List.mem_cons] at hd
      rcases hd with hd | rfl | hd
      · exact ⟨d, by simp [hd], h3, h4⟩
      · simp only at h3; omega
      · exact ⟨d, by simp [hd], h3, h4⟩

/-- One iteration: when the first point is clustered, its cluster has a copy from then on. -/
theorem iteration_gone {rec : Deeper K} {yd : List K} {mp : ℕ} {s0 s s' : Cluster.State K} {ms ms' : List (Cluster K)} {fl : List Bool}
    (hw : Cluster.WF J.x.length s.clusters)
    (hz : s.lastpoint = some 0 → s.lastcluster.getD 0 = 0)
    (hk : s.lastpoint ≠ some 0 → Cluster.Clustered s.clusters 0 → Cluster.Clustered s0.clusters 0 ∧
      (ms.length < s.clusters.length → 1 ≤ s.lastcluster.getD 0))
    (h : Cluster.Clustered s0.clusters 0 → Gone fl)
    (hd : iteration W J rec yd mp s ms = .ok (s', ms')) :
    ∃ fl', iterationShare W J rec yd mp s ms fl = .ok fl' ∧ (Cluster.Clustered s'.clusters 0 → Gone fl') := by
  unfold iteration at hd
  simp only at hd
  obtain ⟨ms1, e1, hd⟩ := bind_ok hd
  obtain ⟨adj, e2, hd⟩ := bind_ok hd
  split at hd
  · simp at hd
  split at hd
  · simp at hd
  obtain ⟨ms2, e3, hd⟩ := bind_ok hd
  obtain ⟨ms3, e4, hd⟩ := bind_ok hd
  obtain ⟨ms4, e5, hd⟩ := bind_ok hd
  obtain ⟨ms5, e6, hd⟩ := bind_ok hd
  have hfa : Cluster.findAdjacent s = .ok adj := by
    split at e2
    · simp at e2
    · rename_i a heq; simp only [Except.ok.injEq] at e2; rw [heq, e2]
  have hadj : adj = Cluster.adjLoop s.clusters 0 := by
    unfold Cluster.findAdjacent at e2
    split at e2
    · simp at e2
    · rename_i a heq
      split at heq
      · simp at heq
      · simp only at heq
        split at heq
        · simp only [Except.ok.injEq] at heq e2
          rw [← e2, heq]
        · simp at heq
  have hsort := Cluster.adjLoop_sorted s.clusters 0
  rw [← hadj] at hsort
  have htail : ∀ i ∈ adj.flatten.tail.reverse, 1 ≤ i := by
    intro i hi
    rw [List.mem_reverse] at hi
    cases hf : adj.flatten with
    | nil => rw [hf] at hi; simp at hi
    | cons a l =>
      rw [hf] at hi hsort
      have := (List.pairwise_cons.1 hsort).1 i hi
      omega
  have hcov : Cluster.Clustered s'.clusters 0 → Cluster.Clustered s.clusters 0 := by
    split at hd
    · split at hd
      · rename_i s'' heq
        simp only [pure, Except.pure, Except.ok.injEq, Prod.mk.injEq] at hd
        obtain ⟨rfl, -⟩ := hd
        have := (Cluster.combine_ok_spec (gs := [adj.flatten]) hw (by simpa using hsort) (by rw [heq])).1.covered 0
        rw [heq] at this
        exact this.1
      · simp at hd
    · simp only [pure, Except.pure, Except.ok.injEq, Prod.mk.injEq] at hd
      rw [← hd.1]
      exact id
  refine ⟨joinShare W J rec yd s.clusters adj.flatten.tail.reverse ms4 (boundaryShare J s (s.lastcluster.getD 0)
    (contingentShare W mp (s.lastcluster.getD 0) ms2 (fitAllShare W adj.flatten ms1 (updateShare s (s.lastcluster.getD 0) ms fl)))), ?_, ?_⟩
  · unfold iterationShare
    simp only [e1, hfa, e3, e4, e5, bind, Except.bind, pure, Except.pure]
  · intro h0
    apply gone_join _ _ _ htail
    have h0 := hcov h0
    by_cases hlast : s.lastpoint = some 0
    · unfold boundaryShare
      rw [if_pos (Or.inl hlast), hz hlast]
      exact gone_set_zero _
    · obtain ⟨k1, k2⟩ := hk hlast h0
      have g0 : Gone (updateShare s (s.lastcluster.getD 0) ms fl) := by
        unfold updateShare
        split
        · rename_i hlt
          exact gone_insert (h k1) (k2 hlt) _
        · exact h k1
      have g1 : Gone (contingentShare W mp (s.lastcluster.getD 0) ms2 (fitAllShare W adj.flatten ms1 (updateShare s (s.lastcluster.getD 0) ms fl))) :=
        gone_contingent (gone_fitAll _ _ _ g0)
      unfold boundaryShare
      split
      · exact gone_set g1 _
      · exact g1

theorem mainLoop_gone (hS : Sane W) (hQ : Supplies W J Q) {rec : Deeper K} (hR : Finds rec Q) {yd y0 : List K}
    (hx : Data J.x yd J.dy) (hx0 : J.x ≠ []) (hl : J.x.length = y0.length) {order : List ℕ} (ho : Cluster.IsArgsort y0 order) {mp : ℕ} :
    ∀ (n : ℕ) (s : Cluster.State K) (ms ms' : List (Cluster K)) (sl : List (ℕ × ℕ)) (fl : List Bool),
    Cluster.LoopInv J.x y0 J.cres order ⟨s, sl⟩ → Sync J Q J.x yd J.dy (some J.bl) ms sl →
    (Cluster.Clustered s.clusters 0 → Gone fl) →
    mainLoop W J rec yd mp n s ms = .ok ms' → Gone (mainLoopShare W J rec yd mp n s ms fl) := by
  intro n
  induction n with
  | zero => intro s ms ms' sl fl _ _ _ h; simp [mainLoop] at h
  | succ n ih =>
    intro s ms ms' sl fl hi hs hf h
    unfold mainLoop at h
    unfold mainLoopShare
    have hinv := Cluster.inv_next hx.inc.nondecreasing hl ho hi.inv
    have hstep := Cluster.step_cases hx.inc hl ho hi
    have hcases := Cluster.next_cases hl ho hi.inv
    cases hn : Cluster.next s with
    | mk o s1 =>
      rw [hn] at h
      have hn' : Cluster.next (⟨s, sl⟩ : Cluster.Extraction K).dc = (o, s1) := hn
      rw [hn'] at hinv hcases
      cases o with
      | ok =>
        simp only at h ⊢
        split at h
        · simp at h
        · rename_i s2 ms2 e2
          obtain ⟨sl2, g1, g2⟩ := iteration_sync hS hQ hR hx hn hinv.wf hs e2
          have hlen : ms.length = s.clusters.length := by
            rw [hs.length_eq]
            have := hi.sync
            simp only at this
            rw [this, List.length_map]
          rcases hcases with ⟨cur, hc, -⟩ | ⟨-, cur, near, hlt, hnz, hnear, -, hc⟩
          · simp at hc
          · simp only [Prod.mk.injEq, true_and] at hc
            have hcur := hi.inv.cur
            have hol := Cluster.order_length ho
            have hpt := Cluster.order_lt ho (j := cur) (by simp only at hlt hcur; omega)
            obtain ⟨p1, p2⟩ := place_zero hx.inc.nondecreasing hi.inv.wf (by omega) hnear hnz J.cres
            obtain ⟨fl2, f1, f2⟩ := iteration_gone (W := W) (J := J) (s0 := s) (s := s1) (fl := fl) hinv.wf
              (by
                intro h0
                rw [hc] at h0 ⊢
                simp only [Option.some.injEq] at h0
                simpa using p1 h0)
              (by
                intro h0 h1
                rw [hc] at h0 h1 ⊢
                simp only [ne_eq, Option.some.injEq] at h0
                obtain ⟨q1, q2⟩ := p2 h0 h1
                refine ⟨q1, fun hl => ?_⟩
                rw [hlen] at hl
                simpa using q2 hl)
              hf e2
            rw [e2, f1]
            simp only
            rcases hstep with ⟨e', k1, -, -⟩ | ⟨e', k1, k2, -⟩
            · rw [g1] at k1; simp at k1
            · rw [g1] at k1
              simp only [Cluster.StepResult.next.injEq] at k1
              subst k1
              exact ih s2 ms2 ms' sl2 fl2 k2 g2 f2 h
      | stopIteration =>
        simp only
        apply hf
        rcases hstep with ⟨e', k1, k2, k3⟩ | ⟨e', k1, -, -⟩
        · have hall := Cluster.all_clustered hl ho k2.inv k2.proc k3 0 (List.length_pos_iff.2 hx0)
          unfold Cluster.Extraction.step at k1
          rw [hn'] at k1
          simp only [Cluster.StepResult.finished.injEq] at k1
          rw [← k1] at hall
          rcases hcases with ⟨cur, hc, -⟩ | ⟨-, cur, near, -, -, -, -, hc⟩
          · simp only [Prod.mk.injEq, true_and] at hc
            rw [hc] at hall
            exact hall
          · simp at hc
        · unfold Cluster.Extraction.step at k1
          rw [hn'] at k1
          simp at k1
      | valueError => simp at h
      | indexError => simp at h
      | typeError => simp at h
      | exception => simp at h

/-- Some point is higher above baseline and initial peaks than the first one. -/
def LaterPeak (W : World K) (J : Job K) : Prop :=
  ∃ (i : ℕ) (x₀ y₀ x₁ y₁ : K), J.x[0]? = some x₀ ∧ J.y[0]? = some y₀ ∧ J.x[i]? = some x₁ ∧ J.y[i]? = some y₁ ∧
    y₀ - W.val J.bl x₀ - valueAt W.val J.ip x₀ < y₁ - W.val J.bl x₁ - valueAt W.val J.ip x₁

theorem searchShare_later (hS : Sane W) (hQ : Supplies W J Q) {rec : Deeper K} (hR : Finds rec Q) (hx : Data J.x J.y J.dy)
    (hp : LaterPeak W J) {top : Bool} {c : Cluster K} (h : search W J rec top = .ok c) : searchShare W J rec = false := by
  obtain ⟨i, x₀, v₀, x₁, v₁, a1, a2, a3, a4, hlt⟩ := hp
  have hx0 : J.x ≠ [] := by rintro h0; rw [h0] at a1; simp at a1
  unfold search searchN at h
  simp only at h
  obtain ⟨dc, e1, h⟩ := bind_ok h
  obtain ⟨first, e2, h⟩ := bind_ok h
  obtain ⟨mp, e5, h⟩ := bind_ok h
  obtain ⟨ms, e3, h⟩ := bind_ok h
  have hmk : Cluster.mk J.x (List.zipWith (fun a b => b - W.val J.bl a - valueAt W.val J.ip a) J.x J.y) J.cres
      (W.as (List.zipWith (fun a b => b - W.val J.bl a - valueAt W.val J.ip a) J.x J.y)) = .ok dc := by
    split at e1
    · simp at e1
    · rename_i s heq; simp only [Except.ok.injEq] at e1; rw [heq, e1]
  clear e1
  unfold searchShare
  simp only [hmk, e2, e5]
  have b0 : (List.zipWith (fun a b => b - W.val J.bl a - valueAt W.val J.ip a) J.x J.y)[0]? =
      some (v₀ - W.val J.bl x₀ - valueAt W.val J.ip x₀) := by
    rw [List.getElem?_zipWith, a1, a2]
  have b1 : (List.zipWith (fun a b => b - W.val J.bl a - valueAt W.val J.ip a) J.x J.y)[i]? =
      some (v₁ - W.val J.bl x₁ - valueAt W.val J.ip x₁) := by
    rw [List.getElem?_zipWith, a3, a4]
  generalize hy0 : List.zipWith (fun a b => b - W.val J.bl a - valueAt W.val J.ip a) J.x J.y = y0 at hmk b0 b1
  generalize hyd : List.zipWith (fun a b => b - valueAt W.val J.ip a) J.x J.y = yd at e2 e3
  have hl0 : J.x.length = y0.length := by rw [← hy0, List.length_zipWith, hx.leny, min_self]
  have hld : yd.length = J.x.length := by rw [← hyd, List.length_zipWith, hx.leny, min_self]
  have hxd : Data J.x yd J.dy := ⟨hx.inc, hld, hx.lene⟩
  have ho := argsort_of_sortsKeys hS.sorts y0
  obtain ⟨-, -, hinv, hproc, -, hlen⟩ := Cluster.inv_mk hx0 ho hmk
  have hpos : 0 < J.x.length := List.length_pos_iff.2 hx0
  have hI : Cluster.LoopInv J.x y0 J.cres (W.as y0) ⟨dc, [Cluster.cut dc 0]⟩ := by
    refine ⟨hinv, hproc, ?_, ?_⟩
    · intro i hi
      have : i + 1 < dc.clusters.length := hi
      omega
    · show [Cluster.cut dc 0] = dc.clusters.map Cluster.sl
      match hcl : dc.clusters, hlen with
      | [c], _ => simp [Cluster.cut, Cluster.sl, Cluster.row, hcl]
  obtain ⟨o1, sl1, -, -⟩ := newCluster_of (Q := Q) Keys.nil e2
  have hsync : Sync J Q J.x yd J.dy (some J.bl) [first] [Cluster.cut dc 0] := by
    refine .cons ⟨o1, sl1, ?_⟩ .nil
    have hr : Cluster.row dc.clusters 0 ∈ dc.clusters := by
      match hcl : dc.clusters, hlen with
      | [c], _ => simp [Cluster.row]
    have := hinv.wf.valid _ hr
    unfold Cluster.cut
    simp only
    omega
  refine mainLoop_gone hS hQ hR hxd hx0 hl0 ho _ _ _ _ _ _ hI hsync ?_ e3
  -- the first point is not the highest, so it is not clustered at first
  intro hc
  exfalso
  have hol := Cluster.order_length ho
  have hcl : dc.clusters = [((W.as y0).getD ((W.as y0).length - 1) 0, (W.as y0).getD ((W.as y0).length - 1) 0)] := by
    unfold Cluster.mk at hmk
    split at hmk
    · simp at hmk
    split at hmk
    · simp at hmk
    rw [if_neg (by omega)] at hmk
    simp only [Except.ok.injEq] at hmk
    rw [← hmk]
  rw [hcl] at hc
  obtain ⟨d, hd, h1, -⟩ := hc
  rw [List.mem_singleton] at hd
  subst hd
  simp only [Nat.le_zero] at h1
  have hi : i < y0.length := by
    rw [List.getElem?_eq_some_iff] at b1
    exact b1.1
  obtain ⟨j, hj, rfl⟩ := Cluster.order_surj ho hi
  have hmono := Cluster.order_mono ho (i := j) (j := (W.as y0).length - 1) (by omega) (by omega)
  rw [h1] at hmono
  simp only [List.getD_eq_getElem?_getD, b0] at hmono
  rw [List.getD_eq_getElem?_getD] at b1
  rw [b1] at hmono
  simp only [Option.getD_some] at hmono
  exact absurd hlt (not_lt.2 hmono)

end Verif.Parts.Repeat
